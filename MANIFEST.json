{
 "claims": [
  {
   "property": "C01",
   "status": "proved",
   "theorems": [
    "Verif.NamePath.C01_fully_qualified"
   ],
   "note": ""
  },
  {
   "property": "C02",
   "status": "proved",
   "theorems": [
    "Verif.NamePath.C02_resolution_shape",
    "Verif.NamePath.C02_empty_name"
   ],
   "note": ""
  },
  {
   "property": "C03",
   "status": "proved",
   "theorems": [
    "Verif.NamePath.C03_resolve_idempotent"
   ],
   "note": ""
  },
  {
   "property": "C04",
   "status": "partial",
   "theorems": [
    "Verif.NamePath.C04_full_false",
    "Verif.NamePath.C04_failed_call_changes_nothing",
    "Verif.NamePath.C04_successful_call",
    "Verif.NamePath.C04_bounded_partial",
    "Verif.NamePath.C04_max_never_unset",
    "Verif.NamePath.C04_add_accepts",
    "Verif.NamePath.C04_set_accepts"
   ],
   "note": "Setting the maximum after the base path does not check the base path; bounded when the maximum is set first."
  },
  {
   "property": "C05",
   "status": "partial",
   "theorems": [
    "Verif.NamePath.C05_full_false",
    "Verif.NamePath.C05_distinct_partial",
    "Verif.NamePath.C05_collision_needs_underscore"
   ],
   "note": "The full statement is false of the code (underscores collide)."
  },
  {
   "property": "C06",
   "status": "partial",
   "theorems": [
    "Verif.Catalog.C06_full_false",
    "Verif.Catalog.C06_changed_is_net_effect_partial",
    "Verif.Catalog.C06_never_both_partial"
   ],
   "note": "False when a nil function entry is recorded; proved for histories without one."
  },
  {
   "property": "C07",
   "status": "partial",
   "theorems": [
    "Verif.Catalog.C07_full_false",
    "Verif.Catalog.C07_shadowed_by_longer_path",
    "Verif.Catalog.C07_latest_definition_partial",
    "Verif.Catalog.C07_exact_partial",
    "Verif.Catalog.C07_function_iff_partial",
    "Verif.Catalog.C07_table_partial"
   ],
   "note": "False after CREATE OR REPLACE FUNCTION. Exact for every history in which tables and functions do not share names, with names created again: queries use the oldest definition since the last drop (iff for being the latest one). The analyzer lookup is stated for paths of one length."
  },
  {
   "property": "C08",
   "status": "partial",
   "theorems": [
    "Verif.Catalog.C08_full_false",
    "Verif.Catalog.C08_drop_frame_partial",
    "Verif.Catalog.C08_exact_partial",
    "Verif.Catalog.C08_shared_name_loses_functions"
   ],
   "note": "False after a replace (drop of another object reverts the looked-up definition of a replaced table) and for shared names. Exact for every history in which tables and functions do not share names."
  },
  {
   "property": "C09",
   "status": "partial",
   "theorems": [
    "Verif.Catalog.C09_reopen_fails",
    "Verif.Catalog.C09_replaced_function_differs",
    "Verif.Catalog.C09_reopen_partial",
    "Verif.Catalog.C09_exact_partial",
    "Verif.Catalog.C09_function_iff_partial"
   ],
   "note": "False when a table and a function share a name or after a replace. Exact for every history without shared names: a reopened database has the latest permanent definition of every name."
  },
  {
   "property": "C10",
   "status": "proved",
   "theorems": [
    "Verif.Catalog.C10_temp_not_persisted"
   ],
   "note": ""
  },
  {
   "property": "C11",
   "status": "partial",
   "theorems": [
    "Verif.Catalog.C11_full_false",
    "Verif.Catalog.C11_sync_sees_creates_partial",
    "Verif.Catalog.C11_replaced_is_read",
    "Verif.Catalog.C11_exact_partial",
    "Verif.Catalog.C11_replaced_function_stays"
   ],
   "note": "False for drops and replaced functions. For create-only histories the views are equal; for every interleaving without shared names a Sync succeeds, every permanent object is seen (tables with the latest definition), and nothing is seen that was not a definition of that name."
  },
  {
   "property": "C15",
   "status": "partial",
   "theorems": [
    "Verif.Catalog.C15_full_false",
    "Verif.Catalog.C15_reopen_after_rollback_partial",
    "Verif.Catalog.C15_exact_partial"
   ],
   "note": "The in-memory catalog is not rolled back; a reopened database is."
  },
  {
   "property": "C12",
   "status": "proved",
   "theorems": [
    "Verif.Driver.C12_exec_stops_at_first_failure",
    "Verif.Driver.C12_outcome_unique"
   ],
   "note": ""
  },
  {
   "property": "C13",
   "status": "partial",
   "theorems": [
    "Verif.Driver.C13_exec_cleans_up",
    "Verif.Driver.C13_query_full_false",
    "Verif.Driver.C13_query_close_partial",
    "Verif.Driver.C13_errors_reported",
    "Verif.Driver.C13_close_errors"
   ],
   "note": "Proved for Exec; for Query the cleanup depends on the caller closing rows and is skipped when a later statement fails."
  },
  {
   "property": "C14",
   "status": "proved",
   "theorems": [
    "Verif.Driver.C14_statement_runs_in_open_tx",
    "Verif.Driver.C14_ends_even_on_error"
   ],
   "note": ""
  },
  {
   "property": "C16",
   "status": "proved",
   "theorems": [
    "Verif.Driver.C16_one_database_per_dsn",
    "Verif.Driver.C16_every_open_can_finish"
   ],
   "note": ""
  },
  {
   "property": "C78",
   "status": "partial",
   "theorems": [
    "Verif.Engine.C78_full_false",
    "Verif.Engine.C78_temp_table_destroys_permanent",
    "Verif.Engine.C78_temp_function_destroys_permanent",
    "Verif.Engine.C78_failed_create_partial"
   ],
   "note": "False of the code: a TEMP create over an existing permanent object destroys it."
  },
  {
   "property": "C79",
   "status": "partial",
   "theorems": [
    "Verif.Engine.C79_full_false",
    "Verif.Engine.C79_drop_if_exists_partial",
    "Verif.Engine.C79_wrong_kind",
    "Verif.Engine.C79_missing"
   ],
   "note": "False of the code: DROP IF EXISTS of a missing table reports an error (but changes nothing)."
  },
  {
   "property": "C80",
   "status": "partial",
   "theorems": [
    "Verif.Engine.C80_full_false",
    "Verif.Engine.C80_prepare_partial",
    "Verif.Engine.C80_iff"
   ],
   "note": "Exact: preparing has an effect if and only if the statement is CREATE OR REPLACE and the object is there; the object is then gone."
  },
  {
   "property": "C81",
   "status": "partial",
   "theorems": [
    "Verif.Engine.C81_script_partial",
    "Verif.Engine.C81_full_false",
    "Verif.Engine.C81_net_effect_partial",
    "Verif.Engine.C81_exact_partial",
    "Verif.Engine.C81_frame_partial",
    "Verif.Engine.C81_kept_partial",
    "Verif.Engine.C81_temporary_gone_partial",
    "Verif.Engine.C81_temp_destroys_permanent"
   ],
   "note": "False: dropping a temporary table in the script that made it returns an error, temporary objects destroy permanent ones (C78), DROP IF EXISTS of a missing table fails (C79). C81_exact_partial says exactly what every history of calls leaves and which calls fail, with OR REPLACE, IF NOT EXISTS, temporary objects over permanent ones and failing statements; the others are consequences for a user. Missing: a table and a function under one name (C08)."
  },
  {
   "property": "C82",
   "status": "partial",
   "theorems": [
    "Verif.Engine.C82_full_false",
    "Verif.Engine.C82_changed_record_partial"
   ],
   "note": "False for temporary functions; proved for scripts without them (free names, no drops)."
  },
  {
   "property": "C17",
   "status": "partial",
   "theorems": [
    "Verif.Params.C17_full_false",
    "Verif.Params.C17_named_by_name_partial",
    "Verif.Params.C17_order_irrelevant",
    "Verif.Params.C17_too_few",
    "Verif.Params.C17_last_wins",
    "Verif.Params.C17_exact",
    "Verif.Params.C17_iff"
   ],
   "note": "A missing name is not an error but NULL, unless there are fewer values than parameters (C17_full_false); C17_exact states what every statement receives and C17_iff exactly when that is right."
  },
  {
   "property": "C18",
   "status": "partial",
   "theorems": [
    "Verif.Params.C18_full_false",
    "Verif.Params.C18_both_get_first",
    "Verif.Params.C18_ifnull",
    "Verif.Params.C18_positional_partial",
    "Verif.Params.C18_mixed_rejected",
    "Verif.Params.C18_source",
    "Verif.Params.C18_repeat",
    "Verif.Params.C18_iff"
   ],
   "note": "False for several statements and for ? inside IFNULL. Exact (C18_iff): values that differ reach the ?s of a script in order if and only if no ? is in the first argument of IFNULL and all statements with a ? before the last such one are CREATE TABLE."
  },
  {
   "property": "C21",
   "status": "proved",
   "theorems": [
    "Verif.TimestampText.C21_roundtrip",
    "Verif.TimestampText.C21_injective"
   ],
   "note": ""
  },
  {
   "property": "C22",
   "status": "partial",
   "theorems": [
    "Verif.TimestampText.C22_full_false",
    "Verif.TimestampText.C22_negative",
    "Verif.TimestampText.C22_decimal_partial",
    "Verif.TimestampText.C22_exact",
    "Verif.TimestampText.C22_iff"
   ],
   "note": "False for fractions shorter than six digits and for negative numbers; C22_exact and C22_iff state exactly which texts come back right."
  },
  {
   "property": "C23",
   "status": "proved",
   "theorems": [
    "Verif.Logic.C23_and",
    "Verif.Logic.C23_or",
    "Verif.Logic.C23_not",
    "Verif.Logic.C23_and_order",
    "Verif.Logic.C23_or_order"
   ],
   "note": ""
  },
  {
   "property": "C24",
   "status": "partial",
   "theorems": [
    "Verif.Logic.C24_full_false",
    "Verif.Logic.C24_scalar_partial",
    "Verif.Logic.C24_nested_partial",
    "Verif.Logic.C24_struct_names_panic",
    "Verif.Logic.C24_nested_order_reversed",
    "Verif.Logic.C24_bool"
   ],
   "note": "Proved for all modelled scalar types and for equality of NULL-free nested values; arrays/structs containing NULL or with differing field names panic. BOOLs can only be compared for equality. FLOAT64: C166."
  },
  {
   "property": "C25",
   "status": "proved",
   "theorems": [
    "Verif.Logic.C25_distinct"
   ],
   "note": ""
  },
  {
   "property": "C26",
   "status": "partial",
   "theorems": [
    "Verif.Logic.C26_full_false",
    "Verif.Logic.C26_in_partial",
    "Verif.Logic.C26_true_partial",
    "Verif.Logic.C26_unnest_full_false",
    "Verif.Logic.C26_unnest_partial",
    "Verif.Logic.C26_in_iff",
    "Verif.Logic.C26_unnest_iff"
   ],
   "note": "False when no element matches and the list contains NULL; C26_in_iff and C26_unnest_iff state exactly when the answer is right."
  },
  {
   "property": "C27",
   "status": "partial",
   "theorems": [
    "Verif.Logic.C27_coalesce",
    "Verif.Logic.C27_ifnull",
    "Verif.Logic.C27_if",
    "Verif.Logic.C27_nullif_full_false",
    "Verif.Logic.C27_nullif_partial",
    "Verif.Logic.C27_nullif_iff",
    "Verif.Logic.C27_case",
    "Verif.Logic.C27_case_value",
    "Verif.Logic.C27_sql_if"
   ],
   "note": "NULLIF with a NULL second operand panics; everything else proved."
  },
  {
   "property": "C28",
   "status": "partial",
   "theorems": [
    "Verif.Logic.C28_full_false",
    "Verif.Logic.C28_between_partial",
    "Verif.Logic.C28_where_partial",
    "Verif.Logic.C28_iff"
   ],
   "note": "False on NULL operands (FALSE instead of NULL); C28_iff states exactly when the answer is right."
  },
  {
   "property": "C29",
   "status": "partial",
   "theorems": [
    "Verif.Like.C29_full_false",
    "Verif.Like.C29_newline",
    "Verif.Like.C29_like_partial",
    "Verif.Like.C29_total",
    "Verif.Like.C29_exact",
    "Verif.Like.C29_sound",
    "Verif.Like.C29_pattern_iff",
    "Verif.Like.C29_line_iff",
    "Verif.Like.C29_null"
   ],
   "note": "Exact: % is any text without a line break, every other character stands for itself. Without escapes every match is right; a pattern is right for all texts if and only if it has no %, _ or escape, and for all texts of one line if and only if it has no _ or escape. With a NULL operand it is FALSE instead of NULL (C29_null)."
  },
  {
   "property": "C30",
   "status": "partial",
   "theorems": [
    "Verif.Arith.C30_full_false",
    "Verif.Arith.C30_counterexamples",
    "Verif.Arith.C30_add_sub_mul_partial",
    "Verif.Arith.C30_div_partial",
    "Verif.Arith.C30_float_range_partial"
   ],
   "note": "False on overflow (wraps) and above 2^53 for the functions that go through float64; the exact ranges of correctness are proved."
  },
  {
   "property": "C31",
   "status": "partial",
   "theorems": [
    "Verif.Registry.C31_full_false",
    "Verif.Registry.C31_safe_add_ambiguous",
    "Verif.Registry.C31_registry_partial",
    "Verif.Registry.C31_same_on_success",
    "Verif.Registry.C31_null_on_error",
    "Verif.Registry.C31_nothing_else"
   ],
   "note": "The wrapper is right; six SAFE_ names are registered twice and the winner depends on map iteration order."
  },
  {
   "property": "C32",
   "status": "proved",
   "theorems": [
    "Verif.OrderBy.C32_item",
    "Verif.OrderBy.C32_rows"
   ],
   "note": "All modelled scalar types (FLOAT64: C166)."
  },
  {
   "property": "C33",
   "status": "partial",
   "theorems": [
    "Verif.Aggregate.C33_full_false",
    "Verif.Aggregate.C33_partial",
    "Verif.Aggregate.C33_min_max",
    "Verif.Aggregate.C33_countif"
   ],
   "note": "False for BIT_OR/BIT_XOR; proved for COUNT, COUNTIF, SUM, AVG, MIN, MAX, BIT_AND, LOGICAL_AND/OR (FLOAT64: C235 to C237)."
  },
  {
   "property": "C34",
   "status": "partial",
   "theorems": [
    "Verif.Aggregate.C34_count",
    "Verif.Aggregate.C34_countif",
    "Verif.Aggregate.C34_sum_full_false",
    "Verif.Aggregate.C34_sum_int_partial",
    "Verif.Aggregate.C34_sum_iff",
    "Verif.Aggregate.C34_sum_numeric",
    "Verif.Aggregate.C34_avg_partial",
    "Verif.Aggregate.C34_avg_overflow",
    "Verif.Aggregate.C34_min_max",
    "Verif.Aggregate.C34_count_star",
    "Verif.Aggregate.C34_any_value"
   ],
   "note": "SUM/AVG of INT64 wrap silently; everything else proved. FLOAT64: C235 to C237."
  },
  {
   "property": "C35",
   "status": "partial",
   "theorems": [
    "Verif.Aggregate.C35_full_false",
    "Verif.Aggregate.C35_counterexamples",
    "Verif.Aggregate.C35_bit_and_partial",
    "Verif.Aggregate.C35_bit_or_partial",
    "Verif.Aggregate.C35_bit_xor_partial",
    "Verif.Aggregate.C35_logical_partial"
   ],
   "note": "None is NULL on empty input; BIT_OR/BIT_XOR restart at -1/1; exact ranges of correctness proved."
  },
  {
   "property": "C36",
   "status": "partial",
   "theorems": [
    "Verif.Aggregate.C36_distinct",
    "Verif.Aggregate.C36_ignore_nulls",
    "Verif.Aggregate.C36_two_args_false"
   ],
   "note": "Proved for every aggregate with one argument whose type has distinct texts (INT64, BOOL, STRING, BYTES instances given). IGNORE NULLS with two arguments shifts them."
  },
  {
   "property": "C37",
   "status": "partial",
   "theorems": [
    "Verif.Aggregate.C37_array_agg",
    "Verif.Aggregate.C37_array_agg_limit",
    "Verif.Aggregate.C37_order_full_false",
    "Verif.Aggregate.C37_order_partial",
    "Verif.Aggregate.C37_string_full_false",
    "Verif.Aggregate.C37_string_agg_partial",
    "Verif.Aggregate.C37_null_desc",
    "Verif.Aggregate.C37_null_asc_counterexample"
   ],
   "note": "NUMERIC keys sort as text and an empty delimiter becomes a comma; proved for BOOL, STRING and INT64 (to 2^53) keys without NULL."
  },
  {
   "property": "C38",
   "status": "partial",
   "theorems": [
    "Verif.Aggregate.C38_full_false",
    "Verif.Aggregate.C38_partial",
    "Verif.Aggregate.C38_recorded",
    "Verif.Window.C38_window_full_false",
    "Verif.Window.C38_window_partial",
    "Verif.Window.C38_window_panics",
    "Verif.Window.C38_window_recorded"
   ],
   "note": "A user string equal to an option text is swallowed, and a window function of one argument then panics; proved for NULL, INT64, BOOL, BYTES and strings not starting with a brace, for aggregates and for window functions."
  },
  {
   "property": "C39",
   "status": "partial",
   "theorems": [
    "Verif.Window.C39_full_false",
    "Verif.Window.C39_bijection",
    "Verif.Window.C39_partial",
    "Verif.Window.C39_null_key_counterexample",
    "Verif.Window.C39_null_key_unspecified"
   ],
   "note": "PARTITION BY NULL panics; numbering 1..n proved for partitions told apart by their texts, the order for non-NULL keys (INT64 within 2^53)."
  },
  {
   "property": "C40",
   "status": "partial",
   "theorems": [
    "Verif.Window.C40_full_false",
    "Verif.Window.C40_string",
    "Verif.Window.C40_partial",
    "Verif.Window.C40_rank_iff",
    "Verif.Window.C40_dense_iff",
    "Verif.Window.C40_rank_zero"
   ],
   "note": "Keys are compared as INT64 from a start value of 0: false for zero, negative and non-integer keys. Exact for one INT64 key within 2^53: in descending order always right; in ascending order RANK is right exactly for the rows with a positive key (the others get 0), DENSE_RANK exactly in the partitions whose keys are all positive."
  },
  {
   "property": "C41",
   "status": "partial",
   "theorems": [
    "Verif.Window.C41_full_false",
    "Verif.Window.C41_partial",
    "Verif.Window.C41_wrong",
    "Verif.Window.C41_nonpositive"
   ],
   "note": "Right exactly when the partition has at most k+1 rows: both directions proved."
  },
  {
   "property": "C42",
   "status": "partial",
   "theorems": [
    "Verif.Window.C42_full_false",
    "Verif.Window.C42_partial",
    "Verif.Window.C42_exact",
    "Verif.Window.C42_iff"
   ],
   "note": "A reversed frame is a slice panic instead of empty; C42_exact and C42_iff state exactly which frames are right."
  },
  {
   "property": "C43",
   "status": "partial",
   "theorems": [
    "Verif.Window.C43_full_false",
    "Verif.Window.C43_partial",
    "Verif.Window.C43_start_iff",
    "Verif.Window.C43_end_iff"
   ],
   "note": "On one ascending INT64 key: right for PRECEDING starts with CURRENT/FOLLOWING ends; a start of CURRENT ROW or n FOLLOWING, and an end of n PRECEDING, are right exactly if one row alone has the key of that bound (iff)."
  },
  {
   "property": "C44",
   "status": "partial",
   "theorems": [
    "Verif.Window.C44_full_false",
    "Verif.Window.C44_partial",
    "Verif.Window.C44_nth",
    "Verif.Window.C44_first",
    "Verif.Window.C44_iff"
   ],
   "note": "LEAD/LAG replace a NULL target by the default, NTH_VALUE misses the last row, NULLs are skipped by default; C44_iff states exactly when each is right over ROWS frames (NTH_VALUE where the null handling is written)."
  },
  {
   "property": "C45",
   "status": "partial",
   "theorems": [
    "Verif.Window.C45_full_false",
    "Verif.Window.C45_null",
    "Verif.Window.C45_collision",
    "Verif.Window.C45_partial",
    "Verif.Window.goodParts_string",
    "Verif.Window.goodParts_columns",
    "Verif.Window.goodParts_ints",
    "Verif.Window.C45_wide"
   ],
   "note": "NULL panics, texts are joined with underscores and INT64 values above 2^53 collide; proved for one STRING column, for any number of INT64 columns with values exact in FLOAT64 and for columns with injective underscore-free texts."
  },
  {
   "property": "C46",
   "status": "partial",
   "theorems": [
    "Verif.Date.C46_full_false",
    "Verif.Date.C46_days_partial",
    "Verif.Date.C46_weeks",
    "Verif.Date.dateFromUnixDate_iff"
   ],
   "note": "DATE_DIFF in days saturates beyond 106752 days and DATE_FROM_UNIX_DATE wraps beyond 106751 days; both ranges are proved exact. Addition, subtraction and UNIX_DATE are proved for all dates."
  },
  {
   "property": "C47",
   "status": "partial",
   "theorems": [
    "Verif.Date.C47_full_false",
    "Verif.Date.C47_quarter_partial",
    "Verif.Date.C47_month_year_partial",
    "Verif.Date.C47_datetime_partial",
    "Verif.Date.moved_unique"
   ],
   "note": "Months and years proved for all dates; DATE_ADD ignores the amount for quarters and DATE_SUB has none."
  },
  {
   "property": "C48",
   "status": "partial",
   "theorems": [
    "Verif.Date.C48_full_false",
    "Verif.Date.C48_trunc_partial",
    "Verif.Date.C48_isoyear_partial",
    "Verif.Date.C48_isoweek_never",
    "Verif.Date.C48_idempotent_partial"
   ],
   "note": "DAY, WEEK(any day), MONTH, QUARTER, YEAR proved; ISOWEEK is wrong for every date, ISOYEAR exactly when 1 January is a Friday or Saturday."
  },
  {
   "property": "C49",
   "status": "partial",
   "theorems": [
    "Verif.Date.C49_full_false",
    "Verif.Date.C49_year_month_partial",
    "Verif.Date.C49_week_partial",
    "Verif.Date.C49_isoweek_never",
    "Verif.Date.C49_isoyear_partial"
   ],
   "note": "YEAR, MONTH, WEEK proved; WEEK(day) exactly when the weekday is not before the start; ISOWEEK never; QUARTER is an error."
  },
  {
   "property": "C50",
   "status": "partial",
   "theorems": [
    "Verif.Date.C50_full_false",
    "Verif.Date.C50_isoweek_false",
    "Verif.Date.C50_diff_partial",
    "Verif.Date.C50_day_partial",
    "Verif.Date.C50_isoweek_partial",
    "Verif.Date.C50_isoweek_iff",
    "Verif.Date.C50_antisymmetric_partial",
    "Verif.Date.C50_datetime_partial",
    "Verif.Date.C50_datetime_day_wrong"
   ],
   "note": "WEEK(any day), MONTH, YEAR, ISOYEAR proved for all pairs; DAY exactly up to 106752 days; ISOWEEK within a year (exactly when the ISO years begin 48 weeks apart for each year); QUARTER is an error."
  },
  {
   "property": "C51",
   "status": "partial",
   "theorems": [
    "Verif.Date.C51_full_false",
    "Verif.Date.C51_date_partial",
    "Verif.Date.C51_clock_partial",
    "Verif.Date.C51_rebuild_partial",
    "Verif.Date.C51_quarter_partial",
    "Verif.Date.C51_week_false",
    "Verif.Date.C51_week_partial",
    "Verif.Spec.civil_next",
    "Verif.Spec.civil_zero"
   ],
   "note": "All fields proved but QUARTER (wrong exactly on three dates) and WEEK."
  },
  {
   "property": "C52",
   "status": "partial",
   "theorems": [
    "Verif.Date.C52_full_false",
    "Verif.Date.C52_timestamp_partial",
    "Verif.Date.C52_minute_hour_partial",
    "Verif.Date.C52_ms_second_partial"
   ],
   "note": "TIMESTAMP_TRUNC proved; DATETIME_TRUNC/TIME_TRUNC drop too much for MILLISECOND and SECOND (exact condition proved)."
  },
  {
   "property": "C53",
   "status": "partial",
   "theorems": [
    "Verif.Date.C53_full_false",
    "Verif.Date.C53_inverse_partial",
    "Verif.Date.C53_floor"
   ],
   "note": "TIMESTAMP_MILLIS wraps when the microseconds do not fit; everything else proved."
  },
  {
   "property": "C83",
   "status": "partial",
   "theorems": [
    "Verif.Date.C83_full_false",
    "Verif.Date.C83_add_partial",
    "Verif.Date.C83_inverse_partial",
    "Verif.Date.C83_diff_partial",
    "Verif.Date.C83_time_partial"
   ],
   "note": "Right exactly when the amount is below 2^63 ns."
  },
  {
   "property": "C55",
   "status": "partial",
   "theorems": [
    "Verif.Zone.C55_full_false",
    "Verif.Zone.C55_offset_partial",
    "Verif.Zone.C55_named_false",
    "Verif.Zone.C55_named_partial",
    "Verif.Zone.C55_history"
   ],
   "note": "An offset is right exactly when it is positive or has no minutes; a database name containing +dd or -dd is taken as an offset. The answer never depends on the zones used before (cache transparency)."
  },
  {
   "property": "C56",
   "status": "partial",
   "theorems": [
    "Verif.Interval.C56_full_false",
    "Verif.Interval.C56_months_false",
    "Verif.Interval.C56_days_partial",
    "Verif.Interval.C56_hours_partial",
    "Verif.Interval.C56_interval_partial",
    "Verif.Interval.C56_days_unchanged",
    "Verif.Interval.C56_hours_unchanged"
   ],
   "note": "The total is lost exactly when 60 or more minutes are carried downwards; months above 23 are left out of range. Proved for fields up to 10^9."
  },
  {
   "property": "C84",
   "status": "partial",
   "theorems": [
    "Verif.Interval.C84_full_false",
    "Verif.Interval.C84_partial",
    "Verif.Interval.C84_make",
    "Verif.Interval.C84_fraction"
   ],
   "note": "Right exactly for 32-bit amounts."
  },
  {
   "property": "C85",
   "status": "partial",
   "theorems": [
    "Verif.Interval.C85_full_false",
    "Verif.Interval.C85_short_partial",
    "Verif.Interval.C85_months_partial"
   ],
   "note": "Days and time proved; months exactly when the day exists in the month reached."
  },
  {
   "property": "C86",
   "status": "partial",
   "theorems": [
    "Verif.Interval.C86_full_false",
    "Verif.Interval.C86_partial",
    "Verif.Interval.C86_back_partial"
   ],
   "note": "Right exactly up to 106751 days."
  },
  {
   "property": "C57",
   "status": "partial",
   "theorems": [
    "Verif.Strings.C57_full_false",
    "Verif.Strings.C57_bytes",
    "Verif.Strings.C57_string_partial",
    "Verif.Strings.C57_ascii_partial",
    "Verif.Strings.C57_string_wrong",
    "Verif.Strings.C57_iff"
   ],
   "note": "BYTES proved in full. A STRING is cut by bytes at positions counted in characters: right for all positions if and only if the string is ASCII, and for each position if the characters up to the end of the cut are."
  },
  {
   "property": "C58",
   "status": "partial",
   "theorems": [
    "Verif.Strings.C58_full_false",
    "Verif.Strings.C58_left_right",
    "Verif.Strings.C58_repeat_partial",
    "Verif.Strings.C58_reverse",
    "Verif.Strings.C58_pad_string",
    "Verif.Strings.C58_pad_bytes_partial",
    "Verif.Strings.C58_pad_negative"
   ],
   "note": "LEFT, RIGHT, REVERSE and padding a STRING proved; padding BYTES panics exactly when the pattern is at least as long as what is missing; negative counts panic in REPEAT and LPAD."
  },
  {
   "property": "C59",
   "status": "partial",
   "theorems": [
    "Verif.Strings.C59_full_false",
    "Verif.Strings.C59_string",
    "Verif.Strings.C59_bytes_partial",
    "Verif.Strings.C59_bytes_base64_partial",
    "Verif.Strings.C59_trim_bytes_false",
    "Verif.Strings.C59_text_partial",
    "Verif.Strings.C59_bad_bytes"
   ],
   "note": "STRING proved in full. LTRIM/RTRIM of BYTES use the base64 text of the set; TRIM of BYTES proved for sets of bytes below 128 and for texts of any characters; bytes of no character are taken for U+FFFD."
  },
  {
   "property": "C60",
   "status": "proved",
   "theorems": [
    "Verif.Strings.C60_split",
    "Verif.Strings.C60_comma",
    "Verif.Strings.C60_split_bytes",
    "Verif.Strings.C60_empty",
    "Verif.Strings.C60_join_split"
   ],
   "note": ""
  },
  {
   "property": "C61",
   "status": "partial",
   "theorems": [
    "Verif.Strings.C61_full_false",
    "Verif.Strings.C61_hex",
    "Verif.Strings.C61_base64",
    "Verif.Strings.C61_base32",
    "Verif.Strings.C61_code_points_bytes",
    "Verif.Strings.C61_code_points_partial",
    "Verif.Strings.C61_chr_unicode",
    "Verif.Strings.C61_code_points_null"
   ],
   "note": "CODE_POINTS_TO_STRING loses exactly the NUL characters; everything else proved."
  },
  {
   "property": "C62",
   "status": "partial",
   "theorems": [
    "Verif.Strings.C62_full_false",
    "Verif.Strings.C62_bytes_partial",
    "Verif.Strings.C62_string_partial",
    "Verif.Strings.C62_not_ascii",
    "Verif.Strings.C62_not_ascii_dup"
   ],
   "note": "The translations are applied one after the other: right exactly when no character is translated into one translated later. Characters that are not ASCII are taken apart."
  },
  {
   "property": "C63",
   "status": "partial",
   "theorems": [
    "Verif.Strings.C63_full_false",
    "Verif.Strings.C63_strpos_bytes",
    "Verif.Strings.C63_strpos_partial",
    "Verif.Strings.C63_strpos_false",
    "Verif.Strings.C63_instr_two",
    "Verif.Strings.C63_instr_bytes_partial",
    "Verif.Strings.C63_instr_ascii_partial",
    "Verif.Strings.C63_instr_not_ascii",
    "Verif.Strings.C63_instr_last",
    "Verif.Strings.C63_instr_negative"
   ],
   "note": "STRPOS of BYTES proved; of a STRING right exactly when the text before the first occurrence is ASCII. INSTR without a position is always an error; of BYTES and of ASCII texts it is right from positions in front of the last one."
  },
  {
   "property": "C87",
   "status": "partial",
   "theorems": [
    "Verif.Strings.C87_full_false",
    "Verif.Strings.C87_partial",
    "Verif.Strings.C87_empty_partial",
    "Verif.Strings.C87_empty_bytes_partial",
    "Verif.Strings.C87_inserted"
   ],
   "note": "Exact: proved for a non-empty from; with an empty one the replacement is inserted everywhere, so right if and only if it is empty too."
  },
  {
   "property": "C64",
   "status": "partial",
   "theorems": [
    "Verif.Arrays.C64_subscript",
    "Verif.Arrays.C64_null"
   ],
   "note": "Proved of the functions for every array they are given. On the way to them through SQLite INT64 elements beyond 2^53 may change; C286 says which."
  },
  {
   "property": "C65",
   "status": "partial",
   "theorems": [
    "Verif.Arrays.C65_full_false",
    "Verif.Arrays.C65_partial",
    "Verif.Arrays.C65_never_ends",
    "Verif.Arrays.C65_null",
    "Verif.Arrays.C65_default"
   ],
   "note": "Right exactly when the value after the last fits into 64 bits and it is not one value with a negative step; up to the largest INT64 it never returns."
  },
  {
   "property": "C66",
   "status": "proved",
   "theorems": [
    "Verif.Arrays.C66_arrays",
    "Verif.Arrays.C66_length",
    "Verif.Arrays.C66_null"
   ],
   "note": "A NULL in place of an array panics. About the arrays the functions are given; for what INT64 elements beyond 2^53 become on the way see C286."
  },
  {
   "property": "C67",
   "status": "proved",
   "theorems": [
    "Verif.Arrays.C67_bucket",
    "Verif.Arrays.C67_null"
   ],
   "note": "For all types of the model (FLOAT64 is not in it)."
  },
  {
   "property": "C88",
   "status": "partial",
   "theorems": [
    "Verif.Arrays.C88_full_false",
    "Verif.Arrays.C88_day_week_partial",
    "Verif.Arrays.C88_month_year_partial",
    "Verif.Arrays.C88_quarter_is_day",
    "Verif.Arrays.C88_month_end",
    "Verif.Arrays.C88_timestamp_partial",
    "Verif.Arrays.C88_timestamp_part",
    "Verif.Arrays.C88_null"
   ],
   "note": "A single value with a negative step is lost, months overflow at the end of the month, QUARTER counts days; proved outside these cases (timestamps for steps below 2^63 ns)."
  },
  {
   "property": "C89",
   "status": "proved",
   "theorems": [
    "Verif.Arrays.C89_extremes",
    "Verif.Arrays.C89_order",
    "Verif.Arrays.C89_null"
   ],
   "note": "For all types of the model (FLOAT64 is not in it)."
  },
  {
   "property": "C68",
   "status": "proved",
   "theorems": [
    "Verif.Net.C68_net_mask",
    "Verif.Net.C68_trunc",
    "Verif.Net.C68_trunc_idempotent",
    "Verif.Net.C68_trunc_fixed",
    "Verif.Net.C68_ipv4_roundtrip",
    "Verif.Net.C68_text_roundtrip",
    "Verif.Net.C68_text_canonical",
    "Verif.Net.C68_safe_from_string"
   ],
   "note": "The text form of 16-byte addresses is the subject of C224 and C225."
  },
  {
   "property": "C69",
   "status": "partial",
   "theorems": [
    "Verif.Bits.C69_full_false",
    "Verif.Bits.C69_right_shift_counterexample",
    "Verif.Bits.C69_left_partial",
    "Verif.Bits.C69_left_large",
    "Verif.Bits.C69_right_partial",
    "Verif.Bits.C69_negative_partial",
    "Verif.Bits.C69_bit_count",
    "Verif.Bits.C69_bit_count_bytes"
   ],
   "note": "A negative count panics and right shifts of negative numbers keep the sign; everything else is proved."
  },
  {
   "property": "C90",
   "status": "proved",
   "theorems": [
    "Verif.Bits.C90_bitwise",
    "Verif.Bits.C90_bits_determine",
    "Verif.Bits.C90_null"
   ],
   "note": ""
  },
  {
   "property": "C70",
   "status": "partial",
   "theorems": [
    "Verif.Numeric.C70_full_false",
    "Verif.Numeric.C70_partial",
    "Verif.Numeric.C70_div_zero_counterexample",
    "Verif.Numeric.C70_sql",
    "Verif.Numeric.C70_sum",
    "Verif.Numeric.C70_generate_array",
    "Verif.Numeric.C70_generate_array_never",
    "Verif.Numeric.C70_generate_array_ends",
    "Verif.Numeric.C70_range_end",
    "Verif.Numeric.C70_range_counterexample",
    "Verif.Numeric.C70_range_partial",
    "Verif.Numeric.C70_range_both"
   ],
   "note": "Results are exact, but the receiver is modified (visible in GENERATE_ARRAY and RANGE frames over NUMERIC) and division by zero panics."
  },
  {
   "property": "C74",
   "status": "partial",
   "theorems": [
    "Verif.Udf.C74_full_false",
    "Verif.Udf.C74_argument_counterexample",
    "Verif.Udf.C74_partial",
    "Verif.Udf.C74_prefix_breaks"
   ],
   "note": "Textual replacement: wrong when an earlier parameter name starts a later one or an argument mentions a later parameter; right otherwise."
  },
  {
   "property": "C73",
   "status": "partial",
   "theorems": [
    "Verif.Wildcard.C73_full_false",
    "Verif.Wildcard.C73_empty_suffix_counterexample",
    "Verif.Wildcard.C73_parts_counterexample",
    "Verif.Wildcard.C73_partial",
    "Verif.Wildcard.C73_complete_partial",
    "Verif.Wildcard.C73_columns_partial"
   ],
   "note": "The prefix is an unanchored regular expression over underscore names: other tables may be read, and a table named like the prefix makes the query fail; right when no table name agrees with the prefix by accident."
  },
  {
   "property": "C19",
   "status": "partial",
   "theorems": [
    "Verif.Codec.C19_full_false",
    "Verif.Codec.C19_partial",
    "Verif.Codec.C19_small_partial"
   ],
   "note": "Numbers inside arrays and structs are read back as FLOAT64: right exactly when every nested INT64 is a FLOAT64 number. FLOAT64 and JSON: C269. INTERVAL values are not in the model."
  },
  {
   "property": "C20",
   "status": "partial",
   "theorems": [
    "Verif.Codec.C20_full_false",
    "Verif.Codec.C20_null",
    "Verif.Codec.C20_partial"
   ],
   "note": "Only NULL is stored as NULL. The type is kept exactly when the value is not a BOOL (SQLite stores an integer) and has no nested INT64 (read back as FLOAT64)."
  },
  {
   "property": "C91",
   "status": "proved",
   "theorems": [
    "Verif.Codec.C91"
   ],
   "note": "For all types of the model."
  },
  {
   "property": "C92",
   "status": "partial",
   "theorems": [
    "Verif.Date.C92_full_false",
    "Verif.Date.C92_timestamp_partial",
    "Verif.Date.C92_datetime_partial"
   ],
   "note": "ISO parts inherit the faults of DATE_TRUNC; DATETIME_TRUNC to WEEK keeps the time of day; everything else proved."
  },
  {
   "property": "C93",
   "status": "proved",
   "theorems": [
    "Verif.Strings.C93",
    "Verif.Strings.C93_join"
   ],
   "note": "For arrays of STRING."
  },
  {
   "property": "C94",
   "status": "proved",
   "theorems": [
    "Verif.Cast.C94"
   ],
   "note": "For the scalar types of the model (FLOAT64, JSON and INTERVAL are not in it)."
  },
  {
   "property": "C95",
   "status": "partial",
   "theorems": [
    "Verif.Cast.C95_full_false",
    "Verif.Cast.C95_partial"
   ],
   "note": "BYTES to STRING gives the base64 form: right exactly for the empty text. STRING to BYTES is right."
  },
  {
   "property": "C96",
   "status": "partial",
   "theorems": [
    "Verif.Cast.C96_iff",
    "Verif.Cast.C96_partial",
    "Verif.Cast.C96_underscore",
    "Verif.Cast.C96_full_false"
   ],
   "note": "Exact: right for every text but the empty one, which is 0, and hexadecimal numbers grouped by underscores, which are accepted (iff)."
  },
  {
   "property": "C97",
   "status": "partial",
   "theorems": [
    "Verif.Cast.C97_full_false",
    "Verif.Cast.C97_partial"
   ],
   "note": "The result is the numerator: right exactly for integers and one half."
  },
  {
   "property": "C98",
   "status": "proved",
   "theorems": [
    "Verif.Cast.C98"
   ],
   "note": ""
  },
  {
   "property": "C99",
   "status": "proved",
   "theorems": [
    "Verif.Cast.C99"
   ],
   "note": ""
  },
  {
   "property": "C100",
   "status": "partial",
   "theorems": [
    "Verif.Cast.C100_full_false",
    "Verif.Cast.C100_partial"
   ],
   "note": "INT64 to BOOL is an error except for 0 and 1."
  },
  {
   "property": "C101",
   "status": "proved",
   "theorems": [
    "Verif.Cast.C101"
   ],
   "note": ""
  },
  {
   "property": "C102",
   "status": "partial",
   "theorems": [
    "Verif.Cast.C102_full_false",
    "Verif.Cast.C102_anonymous_false",
    "Verif.Cast.C102_partial",
    "Verif.Cast.C102_renamed"
   ],
   "note": "Fields are matched by name and structs without names are not cast; right when the names are distinct and the same. Cast to a type without any of its names, a struct loses all of its values (C102_renamed)."
  },
  {
   "property": "C103",
   "status": "proved",
   "theorems": [
    "Verif.Cast.C103"
   ],
   "note": "In UTC; values as stored and read back by the next function."
  },
  {
   "property": "C104",
   "status": "partial",
   "theorems": [
    "Verif.Cast.C104_full_false",
    "Verif.Cast.C104_partial"
   ],
   "note": "Right exactly outside seven texts that are accepted and the mixtures of cases that are rejected."
  },
  {
   "property": "C105",
   "status": "partial",
   "theorems": [
    "Verif.Cast.C105_full_false",
    "Verif.Cast.C105_partial",
    "Verif.ParseNumeric.C105_exact_partial",
    "Verif.ParseNumeric.C105_dirty"
   ],
   "note": "Decimal texts (with at most a million digits after the point) are right; no text is an error. For every text without the characters / _ b o x p the result is known exactly: the number of the literal, exponents included, or else the number written by the digits the text begins with, sign and point dropped."
  },
  {
   "property": "C106",
   "status": "partial",
   "theorems": [
    "Verif.Cast.C106_full_false",
    "Verif.Cast.C106_partial",
    "Verif.Cast.C106_iff"
   ],
   "note": "Right for every text of the shape of a date; the texts for which it is wrong are exactly those of other shapes that are accepted (times and timestamps)."
  },
  {
   "property": "C77",
   "status": "proved",
   "theorems": [
    "Verif.Rows.C77"
   ],
   "note": ""
  },
  {
   "property": "C107",
   "status": "proved",
   "theorems": [
    "Verif.Rows.C107"
   ],
   "note": "FLOAT64, JSON and INTERVAL are not in the model."
  },
  {
   "property": "C108",
   "status": "partial",
   "theorems": [
    "Verif.Rows.C108_full_false",
    "Verif.Rows.C108_partial",
    "Verif.Rows.C108_ints",
    "Verif.Rows.C108_ints_iff"
   ],
   "note": "INT64 elements pass through FLOAT64: arrays of INT64 are right exactly if it can represent every element (C108_ints says what is read otherwise)."
  },
  {
   "property": "C109",
   "status": "partial",
   "theorems": [
    "Verif.Rows.C109_full_false",
    "Verif.Rows.C109_timestamp_false",
    "Verif.Rows.C109_anonymous_false",
    "Verif.Rows.C109_partial"
   ],
   "note": "NUMERIC fields are fractions, TIMESTAMP fields lose the fraction of a second, BYTES are raw, INT64 fields without names are FLOAT64; right for the other scalar types."
  },
  {
   "property": "C110",
   "status": "proved",
   "theorems": [
    "Verif.Literal.C110"
   ],
   "note": ""
  },
  {
   "property": "C111",
   "status": "partial",
   "theorems": [
    "Verif.Literal.C111_full_false",
    "Verif.Literal.C111_uint_false",
    "Verif.Literal.C111_partial"
   ],
   "note": "A nil pointer panics and unsigned numbers beyond INT64 wrap around; right otherwise."
  },
  {
   "property": "C76",
   "status": "partial",
   "theorems": [
    "Verif.Current.C76_full_false",
    "Verif.Current.C76_range_false",
    "Verif.Current.C76_partial",
    "Verif.Current.C76_now"
   ],
   "note": "With WithCurrentTime every call with a zone is an error; right without a zone from 1677 to 2262."
  },
  {
   "property": "C112",
   "status": "partial",
   "theorems": [
    "Verif.Current.C112_full_false",
    "Verif.Current.C112_partial"
   ],
   "note": "Right with WithCurrentTime; without it every call reads the clock (once per place in the text for all rows: C275_once_partial)."
  },
  {
   "property": "C75",
   "status": "proved",
   "theorems": [
    "Verif.TypeSpec.C75",
    "Verif.TypeSpec.C75_distinct"
   ],
   "note": ""
  },
  {
   "property": "C71",
   "status": "partial",
   "theorems": [
    "Verif.Format.C71_full_false",
    "Verif.Format.C71_many_false",
    "Verif.Format.C71_partial"
   ],
   "note": "Arguments that remain are ignored and %.* is never accepted; right otherwise."
  },
  {
   "property": "C72",
   "status": "partial",
   "theorems": [
    "Verif.Format.C72_full_false",
    "Verif.Format.C72_partial"
   ],
   "note": "Right exactly unless a negative number has a number of digits divisible by three."
  },
  {
   "property": "C113",
   "status": "partial",
   "theorems": [
    "Verif.Format.C113_full_false",
    "Verif.Format.C113_star_false",
    "Verif.Format.C113_partial",
    "Verif.Format.C113_zero"
   ],
   "note": "Numbers are padded, texts are not."
  },
  {
   "property": "C114",
   "status": "partial",
   "theorems": [
    "Verif.Format.C114_full_false",
    "Verif.Format.C114_partial"
   ],
   "note": "%+d is right exactly for n other than 0, % d exactly for n not negative."
  },
  {
   "property": "C54",
   "status": "partial",
   "theorems": [
    "Verif.TimeFormat.C54_full_false",
    "Verif.TimeFormat.C54_reject_false",
    "Verif.TimeFormat.C54_other_text",
    "Verif.TimeFormat.C54_late_year",
    "Verif.TimeFormat.C54_short_year",
    "Verif.TimeFormat.C54_partial"
   ],
   "note": "A year written after the day moves 29 February, and text that does not match is accepted; right with year, month and day in this order."
  },
  {
   "property": "C115",
   "status": "partial",
   "theorems": [
    "Verif.TimeFormat.C115_full_false",
    "Verif.TimeFormat.C115_partial"
   ],
   "note": "The character after a combination such as %E3S is lost; right otherwise."
  },
  {
   "property": "C116",
   "status": "partial",
   "theorems": [
    "Verif.TimeFormat.C116_full_false",
    "Verif.TimeFormat.C116_partial"
   ],
   "note": "%I is right exactly at the hours 1 to 12, %l exactly at hours other than 0 and 12; the others are right."
  },
  {
   "property": "C117",
   "status": "partial",
   "theorems": [
    "Verif.TimeFormat.C117_full_false",
    "Verif.TimeFormat.C117_quarter_false",
    "Verif.TimeFormat.C117_partial",
    "Verif.TimeFormat.C117_quarter"
   ],
   "note": "%m %d %F %y are right; each of the others exactly on the days given by the theorem."
  },
  {
   "property": "C118",
   "status": "proved",
   "theorems": [
    "Verif.TimeFormat.C118"
   ],
   "note": ""
  },
  {
   "property": "C119",
   "status": "proved",
   "theorems": [
    "Verif.TimeFormat.C119"
   ],
   "note": ""
  },
  {
   "property": "C120",
   "status": "partial",
   "theorems": [
    "Verif.Merge.C120_full_false",
    "Verif.Merge.C120_condition_ignored",
    "Verif.Merge.C120_conditions",
    "Verif.Merge.C120_by_source",
    "Verif.Merge.C120_by_source_never",
    "Verif.Merge.C120_null_key",
    "Verif.Merge.C120_update_open",
    "Verif.Merge.C120_crossed",
    "Verif.Merge.C120_names",
    "Verif.Merge.C120_swapped",
    "Verif.Merge.C120_partial"
   ],
   "note": "AND conditions are ignored, NOT MATCHED BY SOURCE never fires, source rows with NULL keys are not inserted, UPDATE may read the wrong row, a target name inside the source text changes the source instead; right for tables of the same layout, clauses without condition (one per kind) and values both rows give alike."
  },
  {
   "property": "C121",
   "status": "partial",
   "theorems": [
    "Verif.Merge.C121_full_false",
    "Verif.Merge.C121_effects",
    "Verif.Merge.C121_partial",
    "Verif.Merge.C121_stuck"
   ],
   "note": "The clauses before the failure stay, and no MERGE succeeds afterwards; a MERGE without failure is complete."
  },
  {
   "property": "C122",
   "status": "partial",
   "theorems": [
    "Verif.Prepared.C122_full_false",
    "Verif.Prepared.C122_ignored",
    "Verif.Prepared.C122_partial"
   ],
   "note": "BEGIN and COMMIT do nothing; right for scripts that do not fail."
  },
  {
   "property": "C123",
   "status": "partial",
   "theorems": [
    "Verif.Prepared.C123_full_false",
    "Verif.Prepared.C123_create",
    "Verif.Prepared.C123_nil",
    "Verif.Prepared.C123_function",
    "Verif.Prepared.C123_last",
    "Verif.Prepared.C123_named",
    "Verif.Prepared.C123_partial"
   ],
   "note": "CREATE TABLE and VIEW always fail, DROP, TRUNCATE, MERGE, BEGIN and COMMIT panic, scripts run only their last statement, names are refused; right for INSERT, UPDATE, DELETE and queries with unnamed arguments."
  },
  {
   "property": "C124",
   "status": "partial",
   "theorems": [
    "Verif.Prepared.C124_full_false",
    "Verif.Prepared.C124_partial",
    "Verif.Prepared.C124_lost"
   ],
   "note": "Exactly the tables of CREATE OR REPLACE are removed by preparing."
  },
  {
   "property": "C125",
   "status": "proved",
   "theorems": [
    "Verif.Format.C125"
   ],
   "note": ""
  },
  {
   "property": "C126",
   "status": "proved",
   "theorems": [
    "Verif.Cast.C126"
   ],
   "note": ""
  },
  {
   "property": "C127",
   "status": "partial",
   "theorems": [
    "Verif.TimeFormat.C127_full_false",
    "Verif.TimeFormat.C127_read",
    "Verif.TimeFormat.C127_partial"
   ],
   "note": "Right exactly for offsets of whole minutes; seconds of the offset are lost."
  },
  {
   "property": "C128",
   "status": "partial",
   "theorems": [
    "Verif.TimeFormat.C128_full_false",
    "Verif.TimeFormat.C128_text",
    "Verif.TimeFormat.C128_partial"
   ],
   "note": "The text is right; it is read back exactly when it has ten digits (2001 to 2286)."
  },
  {
   "property": "C129",
   "status": "proved",
   "theorems": [
    "Verif.TimeFormat.C129"
   ],
   "note": ""
  },
  {
   "property": "C130",
   "status": "proved",
   "theorems": [
    "Verif.TimeFormat.C130"
   ],
   "note": ""
  },
  {
   "property": "C131",
   "status": "partial",
   "theorems": [
    "Verif.TimeFormat.C131_full_false",
    "Verif.TimeFormat.C131_read",
    "Verif.TimeFormat.C131_partial"
   ],
   "note": "The 366th day of a year of 365 is read as its first; C131_partial is an exact equivalence."
  },
  {
   "property": "C132",
   "status": "proved",
   "theorems": [
    "Verif.TimeFormat.C132"
   ],
   "note": ""
  },
  {
   "property": "C133",
   "status": "proved",
   "theorems": [
    "Verif.TimeFormat.C133"
   ],
   "note": ""
  },
  {
   "property": "C134",
   "status": "partial",
   "theorems": [
    "Verif.Query.C134_full_false",
    "Verif.Query.C134_partial"
   ],
   "note": "Proved for every query whose parts are right (okS): excluded are inputs which the formatter appends clauses to without parentheses, and what C135 to C140 refute."
  },
  {
   "property": "C135",
   "status": "partial",
   "theorems": [
    "Verif.Query.C135_full_false",
    "Verif.Query.C135_limit",
    "Verif.Query.C135_partial"
   ],
   "note": "WHERE on a subquery with LIMIT is a syntax error of SQLite."
  },
  {
   "property": "C136",
   "status": "partial",
   "theorems": [
    "Verif.Query.C136_full_false",
    "Verif.Query.C136_nested",
    "Verif.Query.C136_partial"
   ],
   "note": "A join whose right input is a join loses its parentheses."
  },
  {
   "property": "C137",
   "status": "partial",
   "theorems": [
    "Verif.Query.C137_full_false",
    "Verif.Query.C137_inner",
    "Verif.Query.C137_nonempty",
    "Verif.Query.C137_partial"
   ],
   "note": "LEFT JOIN UNNEST without ON drops the rows with an empty array."
  },
  {
   "property": "C138",
   "status": "partial",
   "theorems": [
    "Verif.Query.C138_full_false",
    "Verif.Query.C138_no_group",
    "Verif.Query.C138_partial"
   ],
   "note": "HAVING without GROUP BY is written as WHERE on the aggregate, which SQLite rejects."
  },
  {
   "property": "C139",
   "status": "partial",
   "theorems": [
    "Verif.Query.C139_full_false",
    "Verif.Query.C139_all",
    "Verif.Query.C139_twice",
    "Verif.Query.C139_partial"
   ],
   "note": "INTERSECT ALL and EXCEPT ALL are always an error, and a column that the first query yields twice makes the result repeat it; right for the other operations without such columns."
  },
  {
   "property": "C140",
   "status": "partial",
   "theorems": [
    "Verif.Query.C140_full_false",
    "Verif.Query.C140_self",
    "Verif.Query.C140_nested",
    "Verif.Query.C140_partial"
   ],
   "note": "A WITH query with the name of a table that the statement reads stands for it everywhere, and a WITH clause directly after another is a syntax error; right otherwise."
  },
  {
   "property": "C141",
   "status": "partial",
   "theorems": [
    "Verif.Query.C141_full_false",
    "Verif.Query.C141_first",
    "Verif.Query.C141_partial"
   ],
   "note": "A subquery with more than one row has the value of the first; right for subqueries with at most one row."
  },
  {
   "property": "C142",
   "status": "proved",
   "theorems": [
    "Verif.Query.C142"
   ],
   "note": ""
  },
  {
   "property": "C144",
   "status": "proved",
   "theorems": [
    "Verif.Query.C144",
    "Verif.Query.C144_nulls"
   ],
   "note": ""
  },
  {
   "property": "C145",
   "status": "proved",
   "theorems": [
    "Verif.Query.C145"
   ],
   "note": ""
  },
  {
   "property": "C146",
   "status": "proved",
   "theorems": [
    "Verif.Query.C146"
   ],
   "note": "Keys are compared as SQLite compares them; which keys of different values that takes together is C284."
  },
  {
   "property": "C147",
   "status": "proved",
   "theorems": [
    "Verif.Query.C147"
   ],
   "note": ""
  },
  {
   "property": "C148",
   "status": "proved",
   "theorems": [
    "Verif.Query.C148"
   ],
   "note": ""
  },
  {
   "property": "C143",
   "status": "partial",
   "theorems": [
    "Verif.Schema.C143_full_false",
    "Verif.Schema.C143_backquote",
    "Verif.Schema.C143_other",
    "Verif.Schema.C143_key",
    "Verif.Schema.C143_quote",
    "Verif.Schema.C143_partial"
   ],
   "note": "Names with a backquote or NUL and primary keys whose names need quotes are not written correctly; right for all others."
  },
  {
   "property": "C149",
   "status": "proved",
   "theorems": [
    "Verif.Schema.C149"
   ],
   "note": "FLOAT64, JSON and INTERVAL values are not represented."
  },
  {
   "property": "C150",
   "status": "partial",
   "theorems": [
    "Verif.Schema.C150_full_false",
    "Verif.Schema.C150_project",
    "Verif.Schema.C150_partial"
   ],
   "note": "The name of the index has no quotes: fails for projects such as a-b and for columns whose names need quotes; right otherwise."
  },
  {
   "property": "C151",
   "status": "proved",
   "theorems": [
    "Verif.Query.C151"
   ],
   "note": ""
  },
  {
   "property": "C152",
   "status": "proved",
   "theorems": [
    "Verif.Query.C152"
   ],
   "note": ""
  },
  {
   "property": "C153",
   "status": "proved",
   "theorems": [
    "Verif.Query.C153"
   ],
   "note": ""
  },
  {
   "property": "C154",
   "status": "partial",
   "theorems": [
    "Verif.Query.C154_full_false",
    "Verif.Query.C154_rows",
    "Verif.Query.C154_same",
    "Verif.Query.C154_partial"
   ],
   "note": "Names have no identifiers in DELETE: a subquery that refers to a column of the target with the name of one of its own columns gets its own. Right otherwise."
  },
  {
   "property": "C155",
   "status": "partial",
   "theorems": [
    "Verif.Query.C155_full_false",
    "Verif.Query.C155_rows",
    "Verif.Query.C155_from",
    "Verif.Query.C155_error",
    "Verif.Query.C155_partial"
   ],
   "note": "FROM is dropped: an error or the wrong rows. Right without FROM, under the condition of C154."
  },
  {
   "property": "C156",
   "status": "partial",
   "theorems": [
    "Verif.Query.C156_full_false",
    "Verif.Query.C156_rows",
    "Verif.Query.C156_partial"
   ],
   "note": "As far as queries are translated faithfully (C134)."
  },
  {
   "property": "C157",
   "status": "partial",
   "theorems": [
    "Verif.Query.C157_full_false",
    "Verif.Query.C157_rows",
    "Verif.Query.C157_partial"
   ],
   "note": "Right if no subquery has two columns of one name."
  },
  {
   "property": "C158",
   "status": "partial",
   "theorems": [
    "Verif.Query.C158_full_false",
    "Verif.Query.C158_self",
    "Verif.Query.C158_ifNotExists",
    "Verif.Query.C158_ifNotExists_wrong",
    "Verif.Query.C158_partial"
   ],
   "note": "OR REPLACE drops a table that the query reads before reading it; IF NOT EXISTS is ignored. Right otherwise."
  },
  {
   "property": "C159",
   "status": "partial",
   "theorems": [
    "Verif.Float.C159_full_false",
    "Verif.Float.C159_partial"
   ],
   "note": "Correct rounding in range and errors for division by zero are proved for all finite values; an overflow is infinite instead of an error."
  },
  {
   "property": "C160",
   "status": "partial",
   "theorems": [
    "Verif.Float.C160_full_false",
    "Verif.Float.C160_partial"
   ],
   "note": "The code truncates. Right exactly when the fraction is below a half and the integer part is an INT64."
  },
  {
   "property": "C161",
   "status": "proved",
   "theorems": [
    "Verif.Float.C161_floor",
    "Verif.Float.C161_ceil",
    "Verif.Float.C161_trunc",
    "Verif.Float.C161_inf"
   ],
   "note": ""
  },
  {
   "property": "C162",
   "status": "partial",
   "theorems": [
    "Verif.Float.C162_full_false",
    "Verif.Float.C162_partial"
   ],
   "note": "The number of decimals is ignored. Right exactly when the first n decimals are zeros."
  },
  {
   "property": "C163",
   "status": "partial",
   "theorems": [
    "Verif.Float.C163_full_false",
    "Verif.Float.C163_partial"
   ],
   "note": "Right exactly when the quotient is not NaN (which the client sees as NULL) and the divisor is not a negative zero under a finite non-zero dividend."
  },
  {
   "property": "C164",
   "status": "partial",
   "theorems": [
    "Verif.Float.C164_full_false",
    "Verif.Float.C164_partial",
    "Verif.Float.C164_never",
    "Verif.Float.C164_isNaN",
    "Verif.Float.C164_isInf"
   ],
   "note": "Every value but NaN comes back; NaN becomes NULL, so IS_NAN is never TRUE."
  },
  {
   "property": "C165",
   "status": "partial",
   "theorems": [
    "Verif.Float.C165_full_false",
    "Verif.Float.C165_partial",
    "Verif.Float.C165_inf",
    "Verif.Float.C165_abs"
   ],
   "note": "SIGN is right exactly when the argument is not a negative zero; ABS is proved."
  },
  {
   "property": "C166",
   "status": "proved",
   "theorems": [
    "Verif.Float.C166_compare",
    "Verif.Float.C166_greatest",
    "Verif.Float.C166_least"
   ],
   "note": ""
  },
  {
   "property": "C167",
   "status": "partial",
   "theorems": [
    "Verif.Float.C167_full_false",
    "Verif.Float.C167_never"
   ],
   "note": "LOG(x, y) computes x * 2^trunc(x): proved wrong for every power of a base y >= 2; no part of the property holds."
  },
  {
   "property": "C168",
   "status": "partial",
   "theorems": [
    "Verif.Float.C168_full_false",
    "Verif.Float.C168_partial"
   ],
   "note": "Right exactly when x is finite and has at most nine decimals; infinity becomes 0."
  },
  {
   "property": "C169",
   "status": "partial",
   "theorems": [
    "Verif.Float.C169_full_false",
    "Verif.Float.C169_partial"
   ],
   "note": "Right exactly below 10^6 and not for -0.0; from 10^6 on the text has an exponent."
  },
  {
   "property": "C170",
   "status": "partial",
   "theorems": [
    "Verif.Float.C170_full_false",
    "Verif.Float.C170_partial"
   ],
   "note": "In range the result is nearest, division by zero is NULL; an overflow is infinite instead of NULL."
  },
  {
   "property": "C171",
   "status": "partial",
   "theorems": [
    "Verif.WindowStat.C171_full_false",
    "Verif.WindowStat.C171_partial",
    "Verif.WindowStat.C171_iff"
   ],
   "note": "Peers are counted only if the sort put them earlier; C171_iff: right exactly for the last of the peers."
  },
  {
   "property": "C172",
   "status": "partial",
   "theorems": [
    "Verif.WindowStat.C172_full_false",
    "Verif.WindowStat.C172_partial",
    "Verif.WindowStat.C172_iff"
   ],
   "note": "Exact for one INT64 key within 2^53: right exactly for a row alone in its partition, in descending order, or with a positive key; the others get a negative result."
  },
  {
   "property": "C173",
   "status": "partial",
   "theorems": [
    "Verif.WindowStat.C173_full_false",
    "Verif.WindowStat.C173_divisor",
    "Verif.WindowStat.C173_frame",
    "Verif.WindowStat.C173_partial",
    "Verif.WindowStat.C173_null",
    "Verif.WindowStat.C173_iff",
    "Verif.WindowStat.C173_rows_iff"
   ],
   "note": "The divisor is the length of the frame, NULLs and duplicates included; C173_iff: right exactly without them, or if the values add up to 0."
  },
  {
   "property": "C174",
   "status": "partial",
   "theorems": [
    "Verif.WindowStat.C174_full_false",
    "Verif.WindowStat.C174_partial",
    "Verif.WindowStat.C174_truncates",
    "Verif.WindowStat.C174_max_zero",
    "Verif.WindowStat.C174_respect_nulls"
   ],
   "note": "Exact for integral values, percentiles c/2^q and a maximum other than 0; values are truncated to integers, a maximum of 0 gives 0, a NULL under RESPECT NULLS panics."
  },
  {
   "property": "C175",
   "status": "partial",
   "theorems": [
    "Verif.WindowStat.C175_full_false",
    "Verif.WindowStat.C175_partial",
    "Verif.WindowStat.C175_empty"
   ],
   "note": "Right exactly if p * n is 0 or more than 1; otherwise NULL. Without values the code panics."
  },
  {
   "property": "C176",
   "status": "partial",
   "theorems": [
    "Verif.Query.C176_full_false",
    "Verif.Query.C176_partial"
   ],
   "note": "Faithful if the grouping columns are selected and, with an empty grouping set, an aggregate is; without a selected aggregate the total is one row per input row."
  },
  {
   "property": "C177",
   "status": "proved",
   "theorems": [
    "Verif.Query.C177"
   ],
   "note": "The rows of every grouping set, for queries that select the grouping columns and the aggregates."
  },
  {
   "property": "C178",
   "status": "partial",
   "theorems": [
    "Verif.Query.C178_full_false",
    "Verif.Query.C178_partial",
    "Verif.Query.C178_nulls",
    "Verif.Query.C178_empty_over"
   ],
   "note": "Faithful without NULLS FIRST/LAST against the default and if each function refers to a column; NULLS FIRST/LAST is dropped from the text of every query; COUNT(*) OVER () is an aggregate of the outer query."
  },
  {
   "property": "C179",
   "status": "proved",
   "theorems": [
    "Verif.Query.C179"
   ],
   "note": "For the analytic functions of C178_partial."
  },
  {
   "property": "C180",
   "status": "partial",
   "theorems": [
    "Verif.Query.C180_full_false",
    "Verif.Query.C180_partial"
   ],
   "note": "Faithful if the arguments refer to no column or to one of the subquery; an aggregate of outer columns belongs to the outer query in SQLite."
  },
  {
   "property": "C181",
   "status": "proved",
   "theorems": [
    "Verif.Approx.C181",
    "Verif.Approx.C181_text"
   ],
   "note": "INT64, BOOL, STRING and BYTES; C181_text for any type whose texts are injective."
  },
  {
   "property": "C182",
   "status": "partial",
   "theorems": [
    "Verif.Approx.C182_full_false",
    "Verif.Approx.C182_partial",
    "Verif.Approx.C182_sorted_partial",
    "Verif.Approx.C182_extra"
   ],
   "note": "Refuted by unsorted rows. Proved: the elements are input values, the first is the first row and the last the last row. C182_sorted_partial: on INT64 rows that arrive in ascending order without NULLs the result ascends from the least to the greatest value (float64 rounding included). C182_extra: 14 elements for n = 12."
  },
  {
   "property": "C183",
   "status": "partial",
   "theorems": [
    "Verif.Approx.C183_full_false",
    "Verif.Approx.C183_partial",
    "Verif.Approx.C183_numeric",
    "Verif.Approx.C183_bytes"
   ],
   "note": "Refuted by fewer distinct values than asked for. Proved for the types Go compares by value: right when there are enough distinct values, an error otherwise. NUMERIC counts every row as distinct, BYTES panic."
  },
  {
   "property": "C184",
   "status": "partial",
   "theorems": [
    "Verif.Approx.C184_full_false",
    "Verif.Approx.C184_partial"
   ],
   "note": "As C183, for INT64 weights whose sums stay in range."
  },
  {
   "property": "C185",
   "status": "partial",
   "theorems": [
    "Verif.Approx.C185_full_false",
    "Verif.Approx.C185_value",
    "Verif.Approx.C185_partial"
   ],
   "note": "Refuted by a single row. C185_value gives the value computed, C185_partial the exact condition under which it is right. Exact arithmetic."
  },
  {
   "property": "C186",
   "status": "proved",
   "theorems": [
    "Verif.Approx.C186"
   ],
   "note": "Exact rational arithmetic stands for float64."
  },
  {
   "property": "C187",
   "status": "proved",
   "theorems": [
    "Verif.Approx.C187"
   ],
   "note": "The sketch library is abstract: the estimate is any function of the set of hashes and the precision."
  },
  {
   "property": "C188",
   "status": "partial",
   "theorems": [
    "Verif.Approx.C188_full_false",
    "Verif.Approx.C188_partial"
   ],
   "note": "Refuted by a single NULL. C188_partial says what is counted."
  },
  {
   "property": "C189",
   "status": "partial",
   "theorems": [
    "Verif.ToJson.C189_partial",
    "Verif.ToJson.C189_full_false",
    "Verif.ToJson.C189_string",
    "Verif.ToJson.C189_times"
   ],
   "note": "Exact: the text is the JSON text of the value if the value is clean and no JSON at all otherwise. FLOAT64, JSON and INTERVAL values are not modelled; which characters are printable is open beyond ASCII. In SQL a BOOL arrives as an INT64 (C285)."
  },
  {
   "property": "C190",
   "status": "partial",
   "theorems": [
    "Verif.ToJson.C190_partial",
    "Verif.ToJson.C190_full_false"
   ],
   "note": "False for NULL itself, which panics; proved inside arrays and for TO_JSON."
  },
  {
   "property": "C191",
   "status": "partial",
   "theorems": [
    "Verif.ToJson.C191_partial",
    "Verif.ToJson.C191_never",
    "Verif.ToJson.C191_full_false"
   ],
   "note": "Every INT64 is written as a number, whatever the options."
  },
  {
   "property": "C192",
   "status": "proved",
   "theorems": [
    "Verif.ToJson.C192"
   ],
   "note": "For SQL values in range (Canon) whose NUMERIC parts have at most the digits of their type (Sound)."
  },
  {
   "property": "C193",
   "status": "partial",
   "theorems": [
    "Verif.JsonFuncs.C193_partial",
    "Verif.JsonFuncs.C193_full_false"
   ],
   "note": "Exact. The JSON library is a parameter assumed to select and decode correctly for the document at hand; a JSON number is a rational number, so the text -0 is not represented."
  },
  {
   "property": "C194",
   "status": "partial",
   "theorems": [
    "Verif.JsonFuncs.C194_partial",
    "Verif.JsonFuncs.C194_full_false"
   ],
   "note": "Exact: they agree unless the path selects JSON null."
  },
  {
   "property": "C195",
   "status": "partial",
   "theorems": [
    "Verif.JsonFuncs.C195_partial",
    "Verif.JsonFuncs.C195_full_false",
    "Verif.JsonFuncs.C195_refused"
   ],
   "note": "Exact for both functions. A document the library refuses gives NULL."
  },
  {
   "property": "C196",
   "status": "proved",
   "theorems": [
    "Verif.JsonFuncs.C196"
   ],
   "note": "Assumes of the library that it extracts the texts of the selected values and that Compact keeps their meaning."
  },
  {
   "property": "C197",
   "status": "partial",
   "theorems": [
    "Verif.JsonFuncs.C197_partial",
    "Verif.JsonFuncs.C197_full_false"
   ],
   "note": "Exact for both functions."
  },
  {
   "property": "C198",
   "status": "partial",
   "theorems": [
    "Verif.JsonFuncs.C198_partial",
    "Verif.JsonFuncs.C198_full_false"
   ],
   "note": "Exact."
  },
  {
   "property": "C199",
   "status": "partial",
   "theorems": [
    "Verif.JsonFuncs.C199_partial",
    "Verif.JsonFuncs.C199_full_false"
   ],
   "note": "Exact for INT64 and BOOL; for STRING under the condition that TO_JSON writes JSON at all (C189)."
  },
  {
   "property": "C200",
   "status": "partial",
   "theorems": [
    "Verif.JsonFuncs.C200_partial",
    "Verif.JsonFuncs.C200_full_false",
    "Verif.JsonFuncs.C200_refused"
   ],
   "note": "The mode is never looked at."
  },
  {
   "property": "C201",
   "status": "partial",
   "theorems": [
    "Verif.JsonFuncs.C201_partial",
    "Verif.JsonFuncs.C201_full_false"
   ],
   "note": "Exact."
  },
  {
   "property": "C202",
   "status": "partial",
   "theorems": [
    "Verif.WindowAgg.C202_partial",
    "Verif.WindowAgg.C202_full_false",
    "Verif.WindowAgg.C202_reversed",
    "Verif.WindowAgg.C202_iff"
   ],
   "note": "INT64, BOOL, STRING and BYTES values: right exactly for frames that are not reversed (iff); a reversed frame is a slice panic in every aggregate."
  },
  {
   "property": "C203",
   "status": "partial",
   "theorems": [
    "Verif.WindowAgg.C203_partial",
    "Verif.WindowAgg.C203_full_false"
   ],
   "note": "Every frame that is not reversed (those panic, C202_reversed): the sum modulo 2^64, so right exactly if the sum is an INT64 (iff). Refuted by a slice panic."
  },
  {
   "property": "C204",
   "status": "partial",
   "theorems": [
    "Verif.WindowAgg.C204_partial",
    "Verif.WindowAgg.C204_full_false"
   ],
   "note": "Every frame that is not reversed (those panic, C202_reversed): right exactly if the delimiter is not empty or fewer than two texts are joined (iff)."
  },
  {
   "property": "C205",
   "status": "partial",
   "theorems": [
    "Verif.WindowAgg.C205_partial",
    "Verif.WindowAgg.C205_null",
    "Verif.WindowAgg.C205_full_false"
   ],
   "note": "Without NULLs in the input, right exactly for frames that are not empty (iff); with a NULL anywhere every row is an error."
  },
  {
   "property": "C206",
   "status": "partial",
   "theorems": [
    "Verif.WindowAgg.C206_partial",
    "Verif.WindowAgg.C206_outside_partial",
    "Verif.WindowAgg.C206_full_false"
   ],
   "note": "Over a frame with rows: the first value, right exactly if it is not NULL or all are (iff). NULL over a frame outside of the partition; over another empty frame a value from outside."
  },
  {
   "property": "C207",
   "status": "partial",
   "theorems": [
    "Verif.WindowAgg.C207_partial",
    "Verif.WindowAgg.C207_full_false"
   ],
   "note": "Right exactly if the frame has no NULL and, for VAR_POP, the partition is not a single row with a value (iff). Floating point rounding is not modelled; STDDEV: C291."
  },
  {
   "property": "C208",
   "status": "partial",
   "theorems": [
    "Verif.WindowAgg.C208_partial",
    "Verif.WindowAgg.C208_whole_partial",
    "Verif.WindowAgg.C208_skipped",
    "Verif.WindowAgg.C208_full_false"
   ],
   "note": "Inputs without NULLs over every frame that is not reversed, and any input over the whole unpartitioned window. COVAR_POP calls the same library function (see C185). CORR: C292."
  },
  {
   "property": "C209",
   "status": "partial",
   "theorems": [
    "Verif.Regexps.C209_partial",
    "Verif.Regexps.C209_full_false"
   ],
   "note": "STRING values right; for BYTES it is shown what is compared. Package regexp is a parameter (Go/RegexpEngine.lean) with laws met by a literal engine."
  },
  {
   "property": "C210",
   "status": "partial",
   "theorems": [
    "Verif.Regexps.C210_partial",
    "Verif.Regexps.C210_bytes",
    "Verif.Regexps.C210_position_false",
    "Verif.Regexps.C210_bytes_false",
    "Verif.Regexps.C210_full_false"
   ],
   "note": "STRING with ASCII before the position: right exactly unless the expression has more than one group (iff). Package regexp is a parameter."
  },
  {
   "property": "C211",
   "status": "partial",
   "theorems": [
    "Verif.Regexps.C211_partial",
    "Verif.Regexps.C211_full_false"
   ],
   "note": "STRING: right exactly if the expression has at most one group (iff). Package regexp is a parameter."
  },
  {
   "property": "C212",
   "status": "partial",
   "theorems": [
    "Verif.Regexps.C212_partial",
    "Verif.Regexps.C212_bytes_partial",
    "Verif.Regexps.C212_refused",
    "Verif.Regexps.C212_behind",
    "Verif.Regexps.C212_output_false",
    "Verif.Regexps.C212_which_false",
    "Verif.Regexps.C212_full_false"
   ],
   "note": "Right exactly if the text up to the position asked for is ASCII (iff); BYTES and refused arguments are characterised. Package regexp is a parameter."
  },
  {
   "property": "C213",
   "status": "partial",
   "theorems": [
    "Verif.Regexps.C213_partial",
    "Verif.Regexps.C213_end",
    "Verif.Regexps.C213_backslash",
    "Verif.Regexps.C213_panic",
    "Verif.Regexps.C213_digits",
    "Verif.Regexps.C213_null",
    "Verif.Regexps.C213_dollar_false",
    "Verif.Regexps.C213_full_false"
   ],
   "note": "Replacements with references of one digit to groups that exist, followed by something else, and without dollar signs are right; what is done to references at the end, escaped backslashes, trailing backslashes, dollar signs, several digits and missing groups is shown. Package regexp is a parameter."
  },
  {
   "property": "C214",
   "status": "partial",
   "theorems": [
    "Verif.Words.C214_partial",
    "Verif.Words.C214_default_partial",
    "Verif.Words.C214_full_false"
   ],
   "note": "Given delimiters: right exactly unless the text starts with a delimiter that upper-casing changes (iff). Default delimiters: right for texts without whitespace other than spaces."
  },
  {
   "property": "C215",
   "status": "partial",
   "theorems": [
    "Verif.Words.C215_partial",
    "Verif.Words.C215_shape",
    "Verif.Words.C215_case_false",
    "Verif.Words.C215_full_false"
   ],
   "note": "Right exactly for a capital first letter (iff) if no two letters with one code are separated by vowels only; the result has four characters."
  },
  {
   "property": "C216",
   "status": "partial",
   "theorems": [
    "Verif.Words.C216_partial",
    "Verif.Words.C216_full_false"
   ],
   "note": "Right exactly for the UTF-8 bytes of texts whose characters outside ASCII have no other case (iff)."
  },
  {
   "property": "C217",
   "status": "proved",
   "theorems": [
    "Verif.Words.C217"
   ],
   "note": ""
  },
  {
   "property": "C218",
   "status": "partial",
   "theorems": [
    "Verif.Words.C218_partial",
    "Verif.Words.C218_full_false"
   ],
   "note": "STRING right; BYTES right exactly if empty or starting with the byte of V (iff)."
  },
  {
   "property": "C219",
   "status": "proved",
   "theorems": [
    "Verif.Words.C219"
   ],
   "note": ""
  },
  {
   "property": "C220",
   "status": "proved",
   "theorems": [
    "Verif.Words.C220"
   ],
   "note": ""
  },
  {
   "property": "C221",
   "status": "partial",
   "theorems": [
    "Verif.Concurrent.C221_partial",
    "Verif.Concurrent.C221_scripts_partial",
    "Verif.Concurrent.alone_exec",
    "Verif.Concurrent.C221_lookup_inside_drop",
    "Verif.Concurrent.C221_replace_reverted",
    "Verif.Concurrent.C221_full_false"
   ],
   "note": "For calls that never register an existing name and schedules without a lookup inside a deletion, any number of connections. alone_exec ties the interleaved programs to Engine.exec. Missing: CREATE OR REPLACE over existing objects, transactions, SQLITE_BUSY."
  },
  {
   "property": "C222",
   "status": "partial",
   "theorems": [
    "Verif.Concurrent.C222_partial",
    "Verif.Concurrent.C222_temps_collide",
    "Verif.Concurrent.C222_temp_visible",
    "Verif.Concurrent.C222_full_false"
   ],
   "note": "After a call of a tame script has returned, exactly its permanent objects exist under its names, if no other call uses these names."
  },
  {
   "property": "C223",
   "status": "partial",
   "theorems": [
    "Verif.Concurrent.C223_partial",
    "Verif.Concurrent.C223_half_create",
    "Verif.Concurrent.C223_half_drop",
    "Verif.Concurrent.C223_temp_survives",
    "Verif.Concurrent.C223_full_false"
   ],
   "note": "At every crash point of a tame script at most one name besides those of temporary objects is broken, and every other name is as after some number of statements. Each SQLite statement is atomic."
  },
  {
   "property": "C224",
   "status": "partial",
   "theorems": [
    "Verif.Net.C224_zone_partial",
    "Verif.Net.C224_partial",
    "Verif.Net.C224_full_false"
   ],
   "note": "Exact (iff) for all texts: zones are accepted and dropped although they should be errors; right for every text without a percent sign. net/netip is part of the trusted model of Go."
  },
  {
   "property": "C225",
   "status": "proved",
   "theorems": [
    "Verif.Net.C225",
    "Verif.Net.C225_injective"
   ],
   "note": "All 16-byte addresses. net/netip is part of the trusted model of Go."
  },
  {
   "property": "C226",
   "status": "partial",
   "theorems": [
    "Verif.ParseNumeric.C226_partial",
    "Verif.ParseNumeric.C226_full_false",
    "Verif.ParseNumeric.C226_null_panics",
    "Verif.ParseNumeric.C226_fraction",
    "Verif.ParseNumeric.C226_zero_denominator",
    "Verif.ParseNumeric.C226_third",
    "Verif.ParseNumeric.C226_other_notations"
   ],
   "note": "Exact (iff) for all texts without the characters / _ b o x p. The other notations of Go (fractions, hexadecimal, underscores, binary exponents) are accepted, range and scale are not checked, NULL panics. math/big Rat.SetString is part of the trusted model of Go."
  },
  {
   "property": "C227",
   "status": "proved",
   "theorems": [
    "Verif.NetHost.C227"
   ],
   "note": "For every parser of URLs whose hosts close their brackets (as net/url guarantees)."
  },
  {
   "property": "C228",
   "status": "partial",
   "theorems": [
    "Verif.NetHost.C228_partial",
    "Verif.NetHost.C228_null_panics",
    "Verif.NetHost.C228_full_false",
    "Verif.NetHost.demo_web"
   ],
   "note": "Everything but NULL, which panics; for all suffix lists and label-wise conversions. golang.org/x/net/idna and publicsuffix are parameters with two laws."
  },
  {
   "property": "C229",
   "status": "partial",
   "theorems": [
    "Verif.JavaScript.C229_partial",
    "Verif.JavaScript.C229_numeric_lost",
    "Verif.JavaScript.C229_timestamp",
    "Verif.JavaScript.C229_never_null",
    "Verif.JavaScript.C229_never_bignumeric",
    "Verif.JavaScript.C229_null",
    "Verif.JavaScript.C229_undefined",
    "Verif.JavaScript.C229_convert",
    "Verif.JavaScript.C229_array_panics",
    "Verif.JavaScript.C229_full_false"
   ],
   "note": "Right for BOOL, STRING, INT64 up to 2^53, DATE, DATETIME, TIME and for arrays; every NUMERIC becomes 0, TIMESTAMP loses fractions of a second, no function of a scalar type ever returns NULL, and a function of an ARRAY type that returns no array panics. FLOAT64, JSON, INTERVAL and STRUCT are not modelled."
  },
  {
   "property": "C230",
   "status": "partial",
   "theorems": [
    "Verif.Query.C230_partial",
    "Verif.Query.C230_success",
    "Verif.Query.C230_refused",
    "Verif.Query.C230_example",
    "Verif.Query.C230_circular",
    "Verif.Query.C230_broken",
    "Verif.Query.C230_full_false"
   ],
   "note": "Proved for every history and every nesting of views whose queries are translated faithfully (okS, see C134). A view of a query that is translated to no SQLite query cannot be read; CREATE OR REPLACE VIEW v over a query of v is accepted and loses the view."
  },
  {
   "property": "C231",
   "status": "partial",
   "theorems": [
    "Verif.Engine.C231_partial",
    "Verif.Engine.C231_reopened",
    "Verif.Engine.C231_temp_destroys",
    "Verif.Engine.C231_full_false"
   ],
   "note": "The statement succeeds and SQLite keeps the object, but its definition is replaced in memory and in the persistent catalog: a database opened again resolves the columns of the table that was never created. TEMP \u2026 IF NOT EXISTS removes a permanent object at the end of the call."
  },
  {
   "property": "C232",
   "status": "partial",
   "theorems": [
    "Verif.Current.C232_partial",
    "Verif.Current.C232_frozen",
    "Verif.Current.C232_ignored",
    "Verif.Current.C232_full_false"
   ],
   "note": "The time given to WithCurrentTime is written into the stored text: right exactly if both statements have the same time (iff); an object created without WithCurrentTime ignores it."
  },
  {
   "property": "C233",
   "status": "partial",
   "theorems": [
    "Verif.Templated.C233_partial",
    "Verif.Templated.C233_regular",
    "Verif.Templated.C233_fixed",
    "Verif.Templated.C233_returns",
    "Verif.Templated.C233_two_types",
    "Verif.Templated.C233_not_created",
    "Verif.Templated.C233_full_false"
   ],
   "note": "Exactly which CREATE FUNCTION statements and calls are accepted and with what type (iff): all arguments of ANY TYPE must have one type, and a body that fits none of the thirteen types tried (NUMERIC and BIGNUMERIC are not among them) cannot be created. Right for bodies whose type does not depend on the arguments, is theirs, or an array or element of it. Coercions of arguments are not modelled."
  },
  {
   "property": "C234",
   "status": "partial",
   "theorems": [
    "Verif.Templated.C234_partial",
    "Verif.Templated.C234_numeric",
    "Verif.Templated.C234_difference",
    "Verif.Templated.C234_returns",
    "Verif.Templated.C234_full_false"
   ],
   "note": "Holds for functions without ANY TYPE and for regular bodies. MOD(x, 2) called with NUMERIC is taken for INT64, x - y of two DATEs for a DATE, and RETURNS does not convert the value of a function with arguments of ANY TYPE."
  },
  {
   "property": "C235",
   "status": "partial",
   "theorems": [
    "Verif.Float.C235_partial",
    "Verif.Float.C235_bound",
    "Verif.Float.C235_exact",
    "Verif.Float.C235_order",
    "Verif.Float.C235_overflow",
    "Verif.Float.C235_full_false"
   ],
   "note": "Every finite result is within the bound; the result is finite if the magnitudes, enlarged by the errors, add up to a FLOAT64. An intermediate overflow gives an infinity though the sum is in range, infinities of both signs give NULL. Integral values up to 2^53 in all are added exactly in every order; otherwise the order matters."
  },
  {
   "property": "C236",
   "status": "proved",
   "theorems": [
    "Verif.Float.C236"
   ],
   "note": ""
  },
  {
   "property": "C237",
   "status": "partial",
   "theorems": [
    "Verif.Float.C237_partial",
    "Verif.Float.C237_exact",
    "Verif.Float.C237_full_false"
   ],
   "note": "It is the nearest FLOAT64 to SUM(x) / COUNT(x), so the nearest to the mean for integral values up to 2^53 in all; otherwise the errors of SUM (C235) are not removed."
  },
  {
   "property": "C238",
   "status": "partial",
   "theorems": [
    "Verif.Float.C238_partial",
    "Verif.Float.C238_whole",
    "Verif.Float.C238_sign",
    "Verif.Float.C238_abs_bound",
    "Verif.Float.C238_bound_sharp",
    "Verif.Float.C238_floor_wrong",
    "Verif.Float.C238_full_false"
   ],
   "note": "SIGN is right for every NUMERIC. ABS, FLOOR, CEIL and TRUNC are exact up to 2^23 in magnitude and for whole numbers up to 2^53; the first bound is the largest (ABS(8388608.000000001) is 8388608.000000002). ABS is within one part in 2^53 for all. FLOOR(9007199254740991.75) is 9007199254740992."
  },
  {
   "property": "C239",
   "status": "partial",
   "theorems": [
    "Verif.Float.C239_mod_partial",
    "Verif.Float.C239_div_partial",
    "Verif.Float.C239_mod_wrong",
    "Verif.Float.C239_div_wrong",
    "Verif.Float.C239_full_false"
   ],
   "note": "MOD is exact for whole numbers up to 2^53, DIV for fractions with one denominator whose numerators are int64. MOD(0.3, 0.1) is 0.1 and DIV(0.5, 0.25) is 1."
  },
  {
   "property": "C240",
   "status": "partial",
   "theorems": [
    "Verif.Zoned.C240_partial",
    "Verif.Zoned.C240_carry",
    "Verif.Zoned.C240_wrong",
    "Verif.Zoned.C240_full_false"
   ],
   "note": "Fields of an existing date and time give it; nothing is refused, all other fields are carried over: DATE(2023, 2, 30) is 2023-03-02 and TIME(25, 0, 0) is 01:00:00."
  },
  {
   "property": "C241",
   "status": "partial",
   "theorems": [
    "Verif.Zoned.C241_shows",
    "Verif.Zoned.C241_partial",
    "Verif.Zoned.C241_twice",
    "Verif.Zoned.C241_split",
    "Verif.Zoned.C241_date",
    "Verif.Zoned.C241_text",
    "Verif.Zoned.C241_full_false",
    "Verif.Go.Location.wall_date"
   ],
   "note": "TIMESTAMP finds a moment that shows the reading whenever there is one, for every zone whose offset changes at most once in 32 hours. The round trip holds unless the reading is shown twice, and then fails for one of the two moments."
  },
  {
   "property": "C242",
   "status": "partial",
   "theorems": [
    "Verif.Zoned.C242_partial",
    "Verif.Zoned.C242_utc",
    "Verif.Zoned.C242_full_false"
   ],
   "note": "The text always ends in +00: it denotes t exactly if the zone is at UTC at that moment, in particular without a zone."
  },
  {
   "property": "C243",
   "status": "partial",
   "theorems": [
    "Verif.Zoned.C243_literal_partial",
    "Verif.Zoned.C243_unix_partial",
    "Verif.Zoned.C243_clock_partial",
    "Verif.Zoned.C243_add_partial",
    "Verif.Zoned.C243_add_fixed",
    "Verif.Zoned.C243_add_wrong",
    "Verif.Zoned.C243_full_false"
   ],
   "note": "DATE literals and DATE_FROM_UNIX_DATE give the day before exactly in processes west of UTC; DATETIME, TIME, DATE, CAST and the current date and time agree with UTC exactly under the stated condition on the offset; days of TIMESTAMP_ADD may have 23 or 25 hours."
  },
  {
   "property": "C244",
   "status": "partial",
   "theorems": [
    "Verif.Zoned.C244_partial",
    "Verif.Zoned.C244_shows_partial",
    "Verif.Zoned.C244_long_partial",
    "Verif.Zoned.C244_fixed",
    "Verif.Zoned.C244_wrong",
    "Verif.Zoned.C244_full_false"
   ],
   "note": "Right when the offset has not changed since the start of the unit and this start is shown once; the clock shows the start at the result whenever it ever does. In the hour shown twice the result may be an hour early or later than t; a day without midnight becomes the day before."
  },
  {
   "property": "C245",
   "status": "partial",
   "theorems": [
    "Verif.Structs.C245"
   ],
   "note": "Proved of the functions for every struct they are given. On the way to them through SQLite INT64 fields beyond 2^53 may change; C286 says which."
  },
  {
   "property": "C246",
   "status": "partial",
   "theorems": [
    "Verif.Structs.C246_partial",
    "Verif.Structs.C246_named",
    "Verif.Structs.C246_tuple",
    "Verif.Structs.C246_wrong",
    "Verif.Structs.C246_full_false"
   ],
   "note": "Only the last field of each name is compared: with distinct names this is equality, of tuples without names only the last field counts, so (1, 2) = (3, 2) is TRUE."
  },
  {
   "property": "C247",
   "status": "partial",
   "theorems": [
    "Verif.AggCall.C247_partial",
    "Verif.AggCall.C247_count",
    "Verif.AggCall.C247_wrong",
    "Verif.AggCall.C247_full_false"
   ],
   "note": "The modifier is ignored: the result is right if the rows it would leave out have NULL arguments, for COUNT exactly then."
  },
  {
   "property": "C248",
   "status": "partial",
   "theorems": [
    "Verif.AggCall.C248_partial",
    "Verif.AggCall.C248_first",
    "Verif.AggCall.C248_keys",
    "Verif.AggCall.C248_wrong",
    "Verif.AggCall.C248_full_false"
   ],
   "note": "The order of NULLs is not looked at: right without NULL keys and in descending order unless NULLS FIRST is asked for, which puts NULLs last. In ascending order with NULL keys see C37."
  },
  {
   "property": "C249",
   "status": "partial",
   "theorems": [
    "Verif.AggCall.C249_partial",
    "Verif.AggCall.C249_order",
    "Verif.AggCall.C249_full_false"
   ],
   "note": "The concatenation of what ARRAY_AGG collects of the arrays; without any array the empty array instead of NULL."
  },
  {
   "property": "C250",
   "status": "partial",
   "theorems": [
    "Verif.Blank.C250_partial",
    "Verif.Blank.C250_select",
    "Verif.Blank.C250_where",
    "Verif.Blank.C250_agg",
    "Verif.Blank.C250_wrong",
    "Verif.Blank.C250_full_false"
   ],
   "note": "The scan is written as nothing. Queries that select a column of it, have WHERE or aggregate an expression with a column fail; an aggregate without columns such as COUNT(*) is computed as if the scan had one row, without an error."
  },
  {
   "property": "C251",
   "status": "partial",
   "theorems": [
    "Verif.Nulls.C251_partial",
    "Verif.Nulls.C251_iff",
    "Verif.Nulls.C251_wrong",
    "Verif.Nulls.C251_tables",
    "Verif.Nulls.C251_else",
    "Verif.Nulls.C251_full_false"
   ],
   "note": "Exact: a function is NULL for NULL if and only if it is not in a list of 24. LIKE is FALSE; SPLIT and TO_CODE_POINTS are empty arrays; JUSTIFY_* and JSON_TYPE are errors; ROUND with NULL decimals, INTERVAL, MAKE_INTERVAL, PARSE_NUMERIC, ARRAY_*, GENERATE_*_ARRAY with a NULL step and six functions of NET panic."
  },
  {
   "property": "C252",
   "status": "partial",
   "theorems": [
    "Verif.Catalog.C252_iff",
    "Verif.Catalog.C252_merge",
    "Verif.Catalog.C252_other",
    "Verif.Catalog.C252_unknown",
    "Verif.Catalog.C252_wrong_table",
    "Verif.Catalog.C252_full_false"
   ],
   "note": "Exact: right if and only if the path, completed by the name path, has one component. Otherwise the last component alone is taken for the name: TRUNCATE TABLE d.t empties the table t, or fails if there is none; the same for the statements of MERGE."
  },
  {
   "property": "C253",
   "status": "partial",
   "theorems": [
    "Verif.Query.C253_delete",
    "Verif.Query.C253_update",
    "Verif.Query.C253_values",
    "Verif.Query.C253_select",
    "Verif.Query.C253_last",
    "Verif.Query.C253_zero",
    "Verif.Query.C253_full_false",
    "Verif.Query.C253_prepared"
   ],
   "note": "Proved for INSERT, UPDATE and DELETE in the cases in which they are executed as they should (C154 to C157). TRUNCATE and MERGE report 0; of several statements only the last counts; on the result of a prepared CREATE statement the method panics."
  },
  {
   "property": "C254",
   "status": "partial",
   "theorems": [
    "Verif.Cursors.C254_iff",
    "Verif.Cursors.C254_left",
    "Verif.Cursors.C254_partial",
    "Verif.Cursors.C254_failed",
    "Verif.Cursors.C254_exec",
    "Verif.Cursors.C254_prepared",
    "Verif.Cursors.C254_full_false"
   ],
   "note": "Exact: closing the connection returns if and only if no query was run but as the last statement of a script that succeeded; otherwise it waits forever for the cursors of the others. Outside of transactions; that sql.Conn.Close waits for open cursors is trusted."
  },
  {
   "property": "C255",
   "status": "partial",
   "theorems": [
    "Verif.Cursors.C255_iff",
    "Verif.Cursors.C255_partial",
    "Verif.Cursors.C255_panics",
    "Verif.Cursors.C255_prepared",
    "Verif.Cursors.C255_cleanup",
    "Verif.Cursors.C255_full_false"
   ],
   "note": "Exact: the changes of the catalog can be had unless the last statement is explained or prepared; closing panics exactly if the last statement is explained and a statement of the script has made a temporary object or a view."
  },
  {
   "property": "C256",
   "status": "partial",
   "theorems": [
    "Verif.Keys.C256_plain",
    "Verif.Keys.C256_insert",
    "Verif.Keys.C256_iff",
    "Verif.Keys.C256_null",
    "Verif.Keys.C256_full_false"
   ],
   "note": "Exact: plain INSERT is right; the other modes are right if and only if there is nothing to ignore, replace or update, and fail otherwise. Keys with NULL are never refused. That SQLite checks one row after the other is trusted."
  },
  {
   "property": "C257",
   "status": "partial",
   "theorems": [
    "Verif.Keys.C257_exact",
    "Verif.Keys.C257_partial",
    "Verif.Keys.C257_full_false"
   ],
   "note": "Exact: it also fails if a row gets the key that a row visited later still has, such as in SET id = id + 1."
  },
  {
   "property": "C258",
   "status": "partial",
   "theorems": [
    "Verif.Query.C258_iff",
    "Verif.Query.C258_partial",
    "Verif.Query.C258_full_false"
   ],
   "note": "Exact, for the statements of C253: the assertion is never looked at, so it is right if and only if the number of rows is the one asserted."
  },
  {
   "property": "C259",
   "status": "partial",
   "theorems": [
    "Verif.Like.C259_exact",
    "Verif.Like.C259_iff",
    "Verif.Like.C259_full_false"
   ],
   "note": "Exact: the code matches base64 texts, so LIKE on BYTES is equality; a pattern is right for all texts if and only if it has no special byte."
  },
  {
   "property": "C260",
   "status": "partial",
   "theorems": [
    "Verif.Literal.C260_order",
    "Verif.Literal.C260_partial",
    "Verif.Literal.C260_empty",
    "Verif.Literal.C260_empty_key",
    "Verif.Literal.C260_full_false"
   ],
   "note": "The order never matters. The value is right for every map with a key that is not empty; the empty map is a struct without fields, and a map whose only key is empty is not cast. Keys are strings."
  },
  {
   "property": "C261",
   "status": "proved",
   "theorems": [
    "Verif.JsonFuncs.C261",
    "Verif.JsonFuncs.C261_query",
    "Verif.JsonFuncs.C261_other"
   ],
   "note": "What a path selects is the JSON library (Works, as in C196). Names with quotes, backslashes or unprintable characters are written as %q does; whether the library reads such paths is not settled."
  },
  {
   "property": "C262",
   "status": "proved",
   "theorems": [
    "Verif.Hash.C262"
   ],
   "note": "The hash functions themselves are parameters."
  },
  {
   "property": "C263",
   "status": "partial",
   "theorems": [
    "Verif.BytesLit.C263_partial",
    "Verif.BytesLit.C263_single",
    "Verif.BytesLit.C263_iff",
    "Verif.BytesLit.C263_full_false"
   ],
   "note": "Right for all bytes between double quotation marks; between single ones exactly for one byte at most (iff): the value of every longer literal is its own text. Which marks the analyzer chooses is a matter of ZetaSQL; how it escapes bytes is assumed."
  },
  {
   "property": "C264",
   "status": "partial",
   "theorems": [
    "Verif.MathFuncs.C264_exact",
    "Verif.MathFuncs.C264_pow_zero",
    "Verif.MathFuncs.C264_pow_neg",
    "Verif.MathFuncs.C264_value",
    "Verif.MathFuncs.C264_full_false"
   ],
   "note": "False for every function and every argument outside its domain: no error is ever reported. What the client gets is stated exactly: an infinity for LN and LOG10 of zero, ATANH of -1 and 1, EXP and POW of a zero, NULL in all other cases. Package math is a parameter, assumed to have its documented special cases."
  },
  {
   "property": "C265",
   "status": "proved",
   "theorems": [
    "Verif.Normalize.C265"
   ],
   "note": "golang.org/x/text/unicode/norm is a parameter; assumed are the laws of the four forms."
  },
  {
   "property": "C266",
   "status": "partial",
   "theorems": [
    "Verif.Normalize.C266_partial",
    "Verif.Normalize.C266_ascii",
    "Verif.Normalize.C266_full_false"
   ],
   "note": "The results agree exactly for texts whose lower-case texts are equivalent (iff); for ASCII the result is the lower-case text. False in general: the code takes lower case for case folding (\u00df and ss, \u03a3 and \u03c2 differ) and does so before normalizing (U+1D400 gives A with NFKC)."
  },
  {
   "property": "C267",
   "status": "partial",
   "theorems": [
    "Verif.Normalize.C267_exact",
    "Verif.Normalize.C267_iff",
    "Verif.Normalize.C267_full_false"
   ],
   "note": "False: under tag:ci two texts are equal exactly when they are the same (iff), every other specification is an error."
  },
  {
   "property": "C268",
   "status": "partial",
   "theorems": [
    "Verif.Normalize.C268_exact",
    "Verif.Normalize.C268_full_false"
   ],
   "note": "False for all texts: the result is always NULL; a search text that is NULL is an error."
  },
  {
   "property": "C269",
   "status": "partial",
   "theorems": [
    "Verif.FloatCodec.C269_iff",
    "Verif.FloatCodec.C269_err",
    "Verif.FloatCodec.C269_nan",
    "Verif.FloatCodec.C269_full_false"
   ],
   "note": "Read back exactly if the value is not NaN and all FLOAT64 inside its arrays and structs are finite (iff); NaN becomes NULL, an array or struct with a NaN or an infinity anywhere in it is an error. The JSON package and base64 are parameters: what they write they read back, and they refuse NaN and infinities."
  },
  {
   "property": "C270",
   "status": "partial",
   "theorems": [
    "Verif.Assign.C270_exact",
    "Verif.Assign.C270_full_false"
   ],
   "note": "Exact: DEFAULT is written as the empty text, which SQLite refuses, so a statement with DEFAULT anywhere is an error; the others insert their values."
  },
  {
   "property": "C271",
   "status": "partial",
   "theorems": [
    "Verif.Assign.C271_exact",
    "Verif.Assign.C271_full_false"
   ],
   "note": "Exact: columns set to values are right; with a field of a struct or DEFAULT anywhere the statement is an error."
  },
  {
   "property": "C272",
   "status": "proved",
   "theorems": [
    "Verif.Cast.C272"
   ],
   "note": "CAST and SAFE_CAST."
  },
  {
   "property": "C273",
   "status": "partial",
   "theorems": [
    "Verif.Cast.C273_iff",
    "Verif.Cast.C273_full_false"
   ],
   "note": "NUMERIC to BIGNUMERIC is right. BIGNUMERIC to NUMERIC keeps the number: right exactly if it is in range and has at most nine decimals (iff)."
  },
  {
   "property": "C274",
   "status": "proved",
   "theorems": [
    "Verif.Once.C274"
   ],
   "note": "When SQLite calls a function once is trusted (sqlite3ExprCodeRunJustOnce)."
  },
  {
   "property": "C275",
   "status": "partial",
   "theorems": [
    "Verif.Once.C275_once_partial",
    "Verif.Once.C275_iff",
    "Verif.Once.C275_wrong",
    "Verif.Once.C275_two",
    "Verif.Once.C275_column",
    "Verif.Once.C275_full_false"
   ],
   "note": "The function is called once per place in the text: all rows have one value, so right exactly if the calls would all have given the same (iff); wrong for identifiers as soon as there are two rows."
  },
  {
   "property": "C276",
   "status": "partial",
   "theorems": [
    "Verif.Constraints.C276_partial",
    "Verif.Constraints.C276_null",
    "Verif.Constraints.C276_as",
    "Verif.Constraints.C276_full_false"
   ],
   "note": "Proved for tables created with a list of columns whose key columns are NOT NULL. A key with a NULL may be stored any number of times, and of CREATE TABLE \u2026 AS no constraint is ever looked at. That SQLite refuses statements against constraints is trusted."
  },
  {
   "property": "C277",
   "status": "partial",
   "theorems": [
    "Verif.Printable.C277_partial",
    "Verif.Printable.C277_str",
    "Verif.Printable.C277_timestamp_iff",
    "Verif.Printable.C277_num",
    "Verif.Printable.C277_bytes_iff",
    "Verif.Printable.C277_quote",
    "Verif.Printable.C277_backslash",
    "Verif.Printable.C277_struct",
    "Verif.Printable.C277_null",
    "Verif.Printable.C277_full_false"
   ],
   "note": "Right for INT64, BOOL (in SQL a BOOL arrives as an INT64, C285), STRING, DATE, DATETIME, TIME, BYTES without quotation marks and backslashes, and arrays and tuples of such values; BYTES exactly for those (iff) and TIMESTAMPs exactly for whole seconds (iff). NUMERIC is never right, nor are structs with names; the result for NULL is NULL. FLOAT64, JSON and INTERVAL are not covered."
  },
  {
   "property": "C278",
   "status": "partial",
   "theorems": [
    "Verif.Printable.C278_partial",
    "Verif.Printable.C278_timestamp_iff",
    "Verif.Printable.C278_bytes_iff",
    "Verif.Printable.C278_full_false"
   ],
   "note": "Right for all types but two: TIMESTAMPs exactly for whole seconds (iff), BYTES exactly if they are printable ASCII (iff). In SQL a BOOL arrives as an INT64 (C285)."
  },
  {
   "property": "C279",
   "status": "partial",
   "theorems": [
    "Verif.WildcardText.C279_exact",
    "Verif.WildcardText.C279_full_false"
   ],
   "note": "Exact, for names without special characters: right unless a table lacks a column that is called by a word SQLite reserves (order, index, to, \u2026); then the query is an error. How SQLite reads names is trusted."
  },
  {
   "property": "C280",
   "status": "partial",
   "theorems": [
    "Verif.WithText.C280_iff",
    "Verif.WithText.C280_reserved",
    "Verif.WithText.C280_full_false"
   ],
   "note": "Exact: an entry keeps its name if and only if that is a word (letters, digits, _ and $) that SQLite does not reserve, and not RECURSIVE in the first entry; reserved words are errors. How SQLite reads names is trusted."
  },
  {
   "property": "C281",
   "status": "partial",
   "theorems": [
    "Verif.CastFormat.C281_date_iff",
    "Verif.CastFormat.C281_iso_iff",
    "Verif.CastFormat.C281_hex_iff",
    "Verif.CastFormat.C281_from_hex_iff",
    "Verif.CastFormat.C281_base64",
    "Verif.CastFormat.C281_parse",
    "Verif.CastFormat.C281_full_false"
   ],
   "note": "The clause is ignored. Exact for formats of YYYY, MM, DD and separators (right for all dates only for YYYY-MM-DD) and for BYTES (HEX only for empty values; BASE64 is right, since CAST gives base64 without a clause). Missing: the other elements of formats."
  },
  {
   "property": "C282",
   "status": "partial",
   "theorems": [
    "Verif.OrderCollate.C282_iff",
    "Verif.OrderCollate.C282_rows_iff",
    "Verif.OrderCollate.C282_full_false"
   ],
   "note": "The clause is ignored. Exact: two texts are compared rightly, and a result is in the right order, if and only if the collation (any function to sort keys) orders these texts as their characters do."
  },
  {
   "property": "C283",
   "status": "partial",
   "theorems": [
    "Verif.TypeParams.C283_insert_iff",
    "Verif.TypeParams.C283_null",
    "Verif.TypeParams.C283_string_iff",
    "Verif.TypeParams.C283_numeric_iff",
    "Verif.TypeParams.C283_full_false"
   ],
   "note": "The parameters are dropped. Exact: a row that breaks no NOT NULL is stored, so a table keeps to its types if and only if the rows inserted do; CAST gives a value of the type if and only if its argument is one."
  },
  {
   "property": "C284",
   "status": "partial",
   "theorems": [
    "Verif.GroupKey.C284_iff",
    "Verif.GroupKey.C284_partial",
    "Verif.GroupKey.C284_float_iff",
    "Verif.GroupKey.C284_nested",
    "Verif.GroupKey.C284_full_false"
   ],
   "note": "Exact: timestamps of one second, strings equal up to their first NUL, NULL with empty BYTES and NULL with NaN are taken together; all other keys are told apart if and only if they differ."
  },
  {
   "property": "C285",
   "status": "partial",
   "theorems": [
    "Verif.Args.C285_call_iff",
    "Verif.Args.C285_deep",
    "Verif.Args.C285_bool",
    "Verif.Args.C285_partial",
    "Verif.Args.C285_struct",
    "Verif.Args.C285_field_iff",
    "Verif.Args.C285_full_false"
   ],
   "note": "Exact for every function of one argument of a scalar type: a BOOL arrives as the INT64 0 or 1, every other value as it is. TO_JSON_STRING of a struct made of scalars writes a field as it should if and only if it is no BOOL and no INT64 of seven digits or more (INT64 up to 2^53). FLOAT64 arguments are not modelled."
  },
  {
   "property": "C286",
   "status": "partial",
   "theorems": [
    "Verif.Args.C286_iff",
    "Verif.Args.C286_partial",
    "Verif.Args.C286_outside",
    "Verif.Args.C286_full_false"
   ],
   "note": "Exact for arrays and structs of values of any depth: an element or field is the value put in if and only if FLOAT64 has every INT64 in it, so all up to 2^53."
  },
  {
   "property": "C287",
   "status": "partial",
   "theorems": [
    "Verif.TimeFormat.C287_iff",
    "Verif.TimeFormat.C287_back",
    "Verif.TimeFormat.C287_end",
    "Verif.TimeFormat.C287_text",
    "Verif.TimeFormat.C287_full_false"
   ],
   "note": "Exact: right if and only if the day of the month has two digits. On the first nine days a zero is written instead of the space, and the text of C is an error. What %c writes is always read back. If anything stands after it the text is an error, whatever the format."
  },
  {
   "property": "C288",
   "status": "partial",
   "theorems": [
    "Verif.Strings.C288_iff",
    "Verif.Strings.C288_join",
    "Verif.Strings.C288_full_false"
   ],
   "note": "Exact: right for a STRING that is not empty, and for BYTES that are not empty and in which no character beyond ASCII is encoded; the bytes of such a character stay together. An empty value has no piece at all."
  },
  {
   "property": "C289",
   "status": "proved",
   "theorems": [
    "Verif.Approx.C289",
    "Verif.Approx.C289_null",
    "Verif.Approx.C289_range",
    "Verif.Approx.C289_line"
   ],
   "note": "In exact arithmetic, the result a signed root of a rational number; floating point rounding is not modelled. If a column does not vary the result is NULL (NaN becomes NULL, see C164)."
  },
  {
   "property": "C290",
   "status": "proved",
   "theorems": [
    "Verif.Approx.C290",
    "Verif.Approx.C290_zero"
   ],
   "note": "In exact arithmetic; floating point rounding is not modelled."
  },
  {
   "property": "C291",
   "status": "partial",
   "theorems": [
    "Verif.WindowAgg.C291_partial",
    "Verif.WindowAgg.C291_full_false"
   ],
   "note": "Right exactly if the frame has no NULL and, for STDDEV_POP, the partition is not a single row with a value (iff), as C207."
  },
  {
   "property": "C292",
   "status": "partial",
   "theorems": [
    "Verif.WindowAgg.C292_partial",
    "Verif.WindowAgg.C292_whole_partial",
    "Verif.WindowAgg.C292_skipped",
    "Verif.WindowAgg.C292_full_false"
   ],
   "note": "Inputs without NULLs over every frame that is not reversed, and any input over the whole unpartitioned window. A row with a NULL never reaches the aggregator, so the rows after it are taken for others: the last one panics."
  },
  {
   "property": "C293",
   "status": "partial",
   "theorems": [
    "Verif.Interval.C293_partial",
    "Verif.Interval.C293_full_false"
   ],
   "note": "Right exactly if the times are less than 2^63 nanoseconds apart, for every way of splitting a duration. How an interval is passed between functions as text is not modelled."
  },
  {
   "property": "C294",
   "status": "partial",
   "theorems": [
    "Verif.Interval.C294_partial",
    "Verif.Interval.C294_full_false"
   ],
   "note": "No comparison works: every operator with an INTERVAL on the left is an error, so that there is no wrong answer either."
  },
  {
   "property": "C295",
   "status": "partial",
   "theorems": [
    "Verif.Memory.C295_file_partial",
    "Verif.Memory.C295_memory_partial",
    "Verif.Memory.C295_single",
    "Verif.Memory.C295_full_false"
   ],
   "note": "Files: right for every history. For :memory: every connection has a SQLite database of its own although all share the catalog: right exactly if, while a table exists, only the connection that made it uses its name; so always with one connection."
  },
  {
   "property": "C296",
   "status": "partial",
   "theorems": [
    "Verif.Memory.C296_partial",
    "Verif.Memory.C296_sessions",
    "Verif.Memory.C296_drop",
    "Verif.Memory.C296_full_false"
   ],
   "note": "Right if no connection is closed that has tables and none makes a table of a name that another open connection has. Otherwise: with one connection open at a time, closing has no effect at all (the next connection finds every table), and dropping a table hides the tables of that name of other connections. The condition is sufficient, not necessary."
  }
 ]
}