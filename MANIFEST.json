{
 "claims": [
  {
   "property": "C01",
   "status": "proved",
   "theorems": [
    "Nebula.C01_range",
    "Nebula.C01_date_roundtrip",
    "Nebula.C01_number_roundtrip",
    "Nebula.C01_number_counts_days"
   ],
   "note": "Both round trips, the exact range, and agreement with counting days one by one in the every-fourth-year calendar that Date uses."
  },
  {
   "property": "C02",
   "status": "proved",
   "theorems": [
    "Nebula.C02_out_of_range_violated",
    "Nebula.C02_add_number",
    "Nebula.C02_add_steps",
    "Nebula.C02_add_add",
    "Nebula.C02_add_sub_cancel",
    "Nebula.C02_add_strictMono"
   ],
   "note": "Exact inside the representable range; C02_out_of_range_violated exhibits the wrap-around outside it, which is what the property's last sentence states."
  },
  {
   "property": "C03",
   "status": "proved",
   "theorems": [
    "Nebula.C03_date_order",
    "Nebula.C03_date_order_is_day_order",
    "Nebula.C03_time_order",
    "Nebula.C03_datetime_order",
    "Nebula.C03_host_order",
    "Nebula.C03_keyvalue_order",
    "Nebula.C03_hash"
   ],
   "note": "Orders proved strict total and consistent with ==; Date order equals day-number order on valid dates; the hash is a function of the fields."
  },
  {
   "property": "C04",
   "status": "proved",
   "theorems": [
    "Nebula.C04_range",
    "Nebula.C04_seconds_roundtrip",
    "Nebula.C04_datetime_roundtrip",
    "Nebula.C04_counts_days",
    "Nebula.C04_monotone"
   ],
   "note": "Both round trips, exact range, agreement with an independent day-by-day Gregorian count, monotonicity."
  },
  {
   "property": "C05",
   "status": "partial",
   "theorems": [
    "Nebula.C05_shift_seconds",
    "Nebula.C05_shift_compose",
    "Nebula.C05_shift_inverse",
    "Nebula.C05_time_shift",
    "Nebula.C05_time_shift_compose",
    "Nebula.C05_date_shift_violated",
    "Nebula.C05_date_shift_partial"
   ],
   "note": "DateTime and Time shifts are proved invertible and additive. The Date shift is not invertible for offsets that are not whole days (C05_date_shift_violated); proved for whole days (C05_date_shift_partial)."
  },
  {
   "property": "C06",
   "status": "proved",
   "theorems": [
    "Nebula.C06_date_from_map",
    "Nebula.C06_datetime_from_map",
    "Nebula.C06_time_from_map"
   ],
   "note": "If and only if, for dates, datetimes and times; never undefined behaviour."
  },
  {
   "property": "C07",
   "status": "partial",
   "theorems": [
    "Nebula.C07_closed_under_add_violated",
    "Nebula.C07_calendars_disagree_violated",
    "Nebula.C07_agree_1901_2099_partial"
   ],
   "note": "The code violates the property (two witnesses); it holds for results in 1901..2099."
  },
  {
   "property": "C08",
   "status": "proved",
   "theorems": [
    "Nebula.C08_propagation",
    "Nebula.C08_empty_only_from_empty",
    "Nebula.C08_unary"
   ],
   "note": "All operators, all values; unary minus and ! too."
  },
  {
   "property": "C09",
   "status": "partial",
   "theorems": [
    "Nebula.C09_exact",
    "Nebula.C09_division",
    "Nebula.C09_mod_violated",
    "Nebula.C09_defined_partial"
   ],
   "note": "Exactness and division proved for all operands; minimum % -1 is undefined behaviour in the code (C09_mod_violated), which C09_defined_partial shows to be the only case."
  },
  {
   "property": "C10",
   "status": "partial",
   "theorems": [
    "Nebula.Value.C10_strict_weak_order_partial",
    "Nebula.Value.C10_types",
    "Nebula.Value.C10_extremes",
    "Nebula.Value.C10_scalars_total",
    "Nebula.Value.C10_scalar_meaning",
    "Nebula.Value.C10_lists",
    "Nebula.Value.C10_float_violated",
    "Nebula.Value.C10_nan_violated",
    "Nebula.Value.C10_path_violated"
   ],
   "note": "Strict weak order proved for arbitrarily nested values without NaN, with floats only if integers stay within 2^53, and vertices that agree on their tags per id; types, extremes, scalars and lists unconditionally. Three witnesses that the restrictions are needed."
  },
  {
   "property": "C11",
   "status": "partial",
   "theorems": [
    "Nebula.Value.C11_reflexive",
    "Nebula.Value.C11_symmetric_partial",
    "Nebula.Value.C11_equivalence_partial",
    "Nebula.Value.C11_meaning",
    "Nebula.Value.C11_hash_partial",
    "Nebula.Value.C11_null_id_violated",
    "Nebula.Value.C11_float_hash_violated",
    "Nebula.Value.C11_float_violated",
    "Nebula.Value.C11_order_partial",
    "Nebula.Value.C11_order_violated"
   ],
   "note": "Equivalence proved for all values without floats (any nesting), hash compatibility for scalar ids, order compatibility without floats and edges; violations exhibited, including that no hash function whatsoever could be compatible with float equality. With floats: C11_reflexive (finite floats at any depth) and C11_symmetric_partial (any floats, no sets)."
  },
  {
   "property": "C12",
   "status": "partial",
   "theorems": [
    "Nebula.Value.C12_equal",
    "Nebula.Value.C12_lessThan",
    "Nebula.Value.C12_equal_symmetric",
    "Nebula.Value.C12_exclusive_partial",
    "Nebula.Value.C12_asymmetric_partial",
    "Nebula.Value.C12_exclusive_violated"
   ],
   "note": "Outcome tables, symmetry and asymmetry proved; exclusivity proved for numbers and for values without floats and edges; violated otherwise (two witnesses)."
  },
  {
   "property": "C13",
   "status": "partial",
   "theorems": [
    "Nebula.C13_dominance_violated",
    "Nebula.C13_tables_partial",
    "Nebula.C13_not",
    "Nebula.C13_commutative",
    "Nebula.C13_de_morgan"
   ],
   "note": "The code lets NULL win over a dominating false/true at the value level (C13_dominance_violated); C13_tables_partial gives the exact table, commutativity up to the null kind and De Morgan hold."
  },
  {
   "property": "C14",
   "status": "partial",
   "theorems": [
    "Nebula.C14_strings",
    "Nebula.C14_lists",
    "Nebula.C14_elements",
    "Nebula.C14_nul_violated",
    "Nebula.C14_text_partial"
   ],
   "note": "Concatenation proved for lists, scalars and strings; texts of strings with an embedded NUL byte joined with numbers are cut (C14_nul_violated)."
  },
  {
   "property": "C15",
   "status": "proved",
   "theorems": [
    "Nebula.C15_bitwise",
    "Nebula.C15_bits_determine",
    "Nebula.C15_types"
   ],
   "note": "Bit by bit, all operands; the 64 bits determine the result."
  },
  {
   "property": "C16",
   "status": "partial",
   "theorems": [
    "Nebula.C16_float_to_int",
    "Nebula.C16_float_special",
    "Nebula.C16_other",
    "Nebula.C16_text_roundtrip",
    "Nebula.C16_text_sound",
    "Nebula.C16_text_overflow",
    "Nebula.C16_text_bool",
    "Nebula.C16_text_float",
    "Nebula.C16_text_point_partial",
    "Nebula.C16_text_point_violated",
    "Nebula.C16_text_nul_violated"
   ],
   "note": "Truncation and saturation for every rational double; not-a-number is undefined behaviour (C16_float_special says so); booleans, floats and integers from texts. strtod is a parameter of which only decimal texts are required (ReadsDecimals, met by sampleStrtod). Violated: C16_text_point_violated (C16_text_point_partial for numbers in range), C16_text_nul_violated."
  },
  {
   "property": "C17",
   "status": "proved",
   "theorems": [
    "Nebula.Value.C17_reverse",
    "Nebula.Value.C17_exact",
    "Nebula.Value.C17_equivalence",
    "Nebula.Value.C17_format",
    "Nebula.Value.C17_details_violated"
   ],
   "note": "C17_details_violated records the two facts the statement mentions: the name is not compared, and type 0 is not equal to its reversal."
  },
  {
   "property": "C18",
   "status": "proved",
   "theorems": [
    "Nebula.C18_vertices",
    "Nebula.C18_edges",
    "Nebula.C18_involution"
   ],
   "note": "Vertices, edges, involution, length; any path."
  },
  {
   "property": "C19",
   "status": "proved",
   "theorems": [
    "Nebula.C19_vertices",
    "Nebula.C19_edges"
   ],
   "note": "If and only if, positions quantified, any path. Set membership by == (hash compatibility is C11)."
  },
  {
   "property": "C20",
   "status": "partial",
   "theorems": [
    "Nebula.C20_step_order_partial",
    "Nebula.C20_ties_violated"
   ],
   "note": "Strict weak order and the exact tie relation proved for ids with fixed tags; the claim itself is refuted (C20_ties_violated)."
  },
  {
   "property": "C21",
   "status": "partial",
   "theorems": [
    "Nebula.C21_append",
    "Nebula.C21_emplace",
    "Nebula.C21_colValues",
    "Nebula.C21_merge_partial",
    "Nebula.C21_merge_violated"
   ],
   "note": "append, row addition and column reading proved; merge proved to keep all values, its alignment is refuted (C21_merge_violated)."
  },
  {
   "property": "C22",
   "status": "proved",
   "theorems": [
    "Nebula.C22_refines",
    "Nebula.C22_history",
    "Nebula.C22_victim",
    "Nebula.C22_counters",
    "Nebula.C22_evicts",
    "Nebula.C22_zero_capacity"
   ],
   "note": "LRU modelled with list-node identities; refinement to a recency list for every operation history."
  },
  {
   "property": "C23",
   "status": "proved",
   "theorems": [
    "Nebula.C23_routing",
    "Nebula.C23_independent",
    "Nebula.C23_counters",
    "Nebula.C23_counters_exact",
    "Nebula.C23_evicts",
    "Nebula.C23_schedules",
    "Nebula.C23_putIfAbsent"
   ],
   "note": "Per-bucket mutex makes each call atomic, so a schedule is an interleaving of atomic calls; total()/hits()/evicts() read buckets without locks and are exact only when no call is running: C23_counters (with clears of buckets), C23_counters_exact (counts over the whole schedule), C23_evicts (each step). Counters are naturals (2^64 wrap-around not modelled)."
  },
  {
   "property": "C24",
   "status": "partial",
   "theorems": [
    "Nebula.C24_contents",
    "Nebula.C24_write",
    "Nebula.C24_clear",
    "Nebula.C24_append_partial",
    "Nebula.C24_append_empty_violated",
    "Nebula.C24_append_sizes_violated",
    "Nebula.C24_append_violated",
    "Nebula.C24_append_self_violated",
    "Nebula.C24_operands",
    "Nebula.C24_numbers"
   ],
   "note": "Contents, writes, visiting, clear for every history; appending proved for non-empty Cords of the same block size other than itself, violations proved for the rest. C24_operands, C24_numbers: the operators << for numbers, truth values, strings and texts in memory."
  },
  {
   "property": "C25",
   "status": "partial",
   "theorems": [
    "Nebula.C25_contents",
    "Nebula.C25_write",
    "Nebula.C25_visit_partial",
    "Nebula.C25_visit_violated",
    "Nebula.C25_append_partial",
    "Nebula.C25_append_violated",
    "Nebula.C25_clear_partial",
    "Nebula.C25_clear_violated",
    "Nebula.C25_operands"
   ],
   "note": "Contents and writes for every history; visiting, appending and writing after clear only under the stated conditions, violations proved. C25_operands: the operators << for numbers, truth values, strings and texts in memory."
  },
  {
   "property": "C26",
   "status": "partial",
   "theorems": [
    "Nebula.C26_history_partial",
    "Nebula.C26_truncation_violated",
    "Nebula.C26_format_partial",
    "Nebula.C26_format_violated",
    "Nebula.C26_heading_partial",
    "Nebula.C26_read_partial",
    "Nebula.C26_listener_violated",
    "Nebula.C26_general_violated",
    "Nebula.C26_doubled"
   ],
   "note": "Every program over Status variables with messages below 65536 bytes; longer ones are proved truncated; messages passed as character pointers go through a format and are cut at 255 bytes, doubled percent signs arriving as one. Printed forms of errors tell codes and messages apart, except the general error (no heading: it can look like any other) and \"listener not found\" (no colon)."
  },
  {
   "property": "C27",
   "status": "partial",
   "theorems": [
    "Nebula.C27_history_partial",
    "Nebula.C27_self_value_violated",
    "Nebula.C27_self_left_violated"
   ],
   "note": "Every program over StatusOr/EitherOr variables except assignment from a reference into the same object, which is proved undefined."
  },
  {
   "property": "C28",
   "status": "partial",
   "theorems": [
    "Nebula.C28_sample",
    "Nebula.C28_draws_complete",
    "Nebula.C28_draws_nodup",
    "Nebula.C28_chance",
    "Nebula.C28_uniform_violated",
    "Nebula.C28_certain_violated",
    "Nebula.C28_positions"
   ],
   "note": "Size, origin and exact chances proved for all offers and draws; uniformity is false of the code (C28_uniform_violated)."
  },
  {
   "property": "C29",
   "status": "partial",
   "theorems": [
    "Nebula.C29_fulfilled",
    "Nebula.C29_value",
    "Nebula.C29_immediate",
    "Nebula.C29_only_succeeded_violated"
   ],
   "note": "Fulfilled exactly once, at the right moment, with indices, for all completion orders; that only successful results are contained is false of the code (violated)."
  },
  {
   "property": "C30",
   "status": "proved",
   "theorems": [
    "Nebula.C30_returns_after",
    "Nebula.C30_errors",
    "Nebula.C30_ready",
    "Nebula.C30_monotone",
    "Nebula.C30_releases",
    "Nebula.C30_calls"
   ],
   "note": "All schedules of any number of threads; isReady's unlocked read is taken as atomic."
  },
  {
   "property": "C31",
   "status": "partial",
   "theorems": [
    "Nebula.C31_completions",
    "Nebula.C31_leaves_after",
    "Nebula.C31_last",
    "Nebula.C31_releases_partial",
    "Nebula.C31_throw_violated",
    "Nebula.C31_reusable",
    "Nebula.C31_calls"
   ],
   "note": "All schedules; release proved when no callback throws and below 2^64 generations; with a throwing callback it is false of the code (violated)."
  },
  {
   "property": "C32",
   "status": "partial",
   "theorems": [
    "Nebula.C32_order",
    "Nebula.C32_none_lost",
    "Nebula.C32_ids_partial",
    "Nebula.C32_ids_violated",
    "Nebula.C32_ids_reachable",
    "Nebula.C32_purge_fired_partial",
    "Nebula.C32_purge_settled_partial",
    "Nebula.C32_purge_violated",
    "Nebula.C32_once",
    "Nebula.C32_repeat_zero_violated",
    "Nebula.C32_armed"
   ],
   "note": "Task part full; timers up to 2^48; purge proved when the timer was armed (it had fired, or everything had settled) before the purge; the general claim is false of the code (race, violated)."
  },
  {
   "property": "C33",
   "status": "proved",
   "theorems": [
    "Nebula.C33_round_robin",
    "Nebula.C33_total",
    "Nebula.C33_zero_violated",
    "Nebula.C33_purge",
    "Nebula.C33_returned",
    "Nebula.C33_distinct",
    "Nebula.C33_many_workers_violated"
   ],
   "note": "Round robin for up to 2^64 calls, ids for up to 2^16 workers and 2^48 calls; outside those bounds counterexamples are proved."
  },
  {
   "property": "C34",
   "status": "proved",
   "theorems": [
    "Nebula.C34_elapsed",
    "Nebula.C34_paused",
    "Nebula.C34_units",
    "Nebula.C34_recalibration_violated",
    "Nebula.C34_elapsed_other"
   ],
   "note": "Both builds; tick arithmetic exact including wrap; unit conversion with exact rationals in place of doubles; recalibration counterexample proved. C34_elapsed_other holds for every history, modulo 2^64 ns."
  },
  {
   "property": "C35",
   "status": "proved",
   "theorems": [
    "Nebula.C35_murmur",
    "Nebula.C35_range",
    "Nebula.C35_eight",
    "Nebula.C35_hashed",
    "Nebula.C35_nul_violated",
    "Nebula.C35_zero_violated",
    "Nebula.C35_getValue_violated"
   ],
   "note": "Bounds, determinism and the hash itself (equal to an independent transcription of libstdc++ _Hash_bytes) proved for every id; the NUL collision, zero partitions and the wrong argument in getValue are proved as separate facts."
  },
  {
   "property": "C36",
   "status": "partial",
   "theorems": [
    "Nebula.Expr.C36_received",
    "Nebula.Expr.C36_round_trip_partial",
    "Nebula.Expr.C36_prefix_free",
    "Nebula.Expr.C36_column_violated",
    "Nebula.Expr.C36_aggregate_violated",
    "Nebula.Expr.C36_range_violated",
    "Nebula.Expr.C36_fatal"
   ],
   "note": "Round trip for all storable expression trees (storable kinds, 64-bit sizes, operand counts below 2^32), result is the expression with wire-image constants; identical expression when constants are plain. Violations exhibited for column, aggregate without argument, range without bounds. C36_fatal: encoding ends the process if and only if a part of one of the four kinds occurs."
  },
  {
   "property": "C37",
   "status": "partial",
   "theorems": [
    "Nebula.Expr.C37_violated",
    "Nebula.Expr.C37_overrun_partial",
    "Nebula.Expr.C37_no_size_partial",
    "Nebula.Expr.C37_local",
    "Nebula.Expr.C37_truncated"
   ],
   "note": "Overrun exists (C37_violated); at most 8 bytes on every input; none at all when no byte is a sized kind; successful decodes look only at the consumed prefix; truncated encodings never decode."
  },
  {
   "property": "C38",
   "status": "partial",
   "theorems": [
    "Nebula.C38_short_circuit_partial",
    "Nebula.C38_combined_partial",
    "Nebula.C38_order_violated",
    "Nebula.C38_order_partial",
    "Nebula.C38_xor",
    "Nebula.C38_xor_error",
    "Nebula.C38_xor_order"
   ],
   "note": "Logical expressions. Proved for every operand list: short circuit (later operands not evaluated), result when no operand decides, XOR parity/EMPTY/errors, order independence (XOR in full; AND/OR unless an EMPTY follows a NULL). C38_order_violated: NULL then EMPTY is BAD_TYPE while EMPTY then NULL is NULL, contrary to the documented precedence."
  },
  {
   "property": "C39",
   "status": "proved",
   "theorems": [
    "Nebula.C39_in",
    "Nebula.C39_other",
    "Nebula.C39_not_in"
   ],
   "note": "IN / NOT IN on lists, sets and map keys; other right operands; NOT IN negates."
  },
  {
   "property": "C40",
   "status": "partial",
   "theorems": [
    "Nebula.C40_combination",
    "Nebula.C40_types",
    "Nebula.C40_null_empty",
    "Nebula.C40_int",
    "Nebula.C40_exactly_one_partial",
    "Nebula.C40_exactly_one_violated",
    "Nebula.C40_greater_violated"
   ],
   "note": "Relational operators are the stated combination of value equality and order, on all values. Exactly one of <, =, > holds for comparable values without float edge cases and edges (C40_exactly_one_partial); C40_exactly_one_violated (an edge and its reversal) and C40_greater_violated (maps, NaN) show the code violates it in general."
  },
  {
   "property": "C41",
   "status": "proved",
   "theorems": [
    "Nebula.C41_strings",
    "Nebula.C41_other"
   ],
   "note": "CONTAINS, STARTS WITH, ENDS WITH and negations against the prefix/suffix/infix relations on byte strings."
  },
  {
   "property": "C42",
   "status": "proved",
   "theorems": [
    "Nebula.C42_subscript",
    "Nebula.C42_rows",
    "Nebula.C42_index_types",
    "Nebula.C42_range",
    "Nebula.C42_range_types",
    "Nebula.C42_range_upper"
   ],
   "note": "Subscripts and ranges with negative bounds, out of range bounds, missing bounds and type errors. C42_rows: rows of data sets; C42_index_types: other kinds of subscripts; C42_range_upper: a NULL upper bound."
  },
  {
   "property": "C43",
   "status": "proved",
   "theorems": [
    "Nebula.C43_match",
    "Nebula.C43_when",
    "Nebula.C43_default",
    "Nebula.C43_bad_type"
   ],
   "note": "CASE with and without a condition: first matching branch, default, NULL, type error; later branches not evaluated."
  },
  {
   "property": "C44",
   "status": "proved",
   "theorems": [
    "Nebula.C44_predicate",
    "Nebula.C44_collection",
    "Nebula.C44_predicate_type",
    "Nebula.C44_comprehension",
    "Nebula.C44_comprehension_short",
    "Nebula.C44_comprehension_type",
    "Nebula.C44_comprehension_error",
    "Nebula.C44_reduce"
   ],
   "note": "Predicates all/any/single/none, list comprehension (with and without condition or mapping), reduce; conditions that are NULL/EMPTY count as not true; type errors. C44_comprehension_error: a condition that is not a boolean at any element, with or without mapping."
  },
  {
   "property": "C45",
   "status": "partial",
   "theorems": [
    "Nebula.C45_depends_partial",
    "Nebula.C45_depends_violated",
    "Nebula.C45_history_violated"
   ],
   "note": "Same value and same effects for any two evaluations in contexts with the same variables and aggregates, for every expression without attribute of an unknown underscore name and without empty XOR (C45_depends_partial). C45_depends_violated and C45_history_violated exhibit the leftover result of an attribute expression."
  },
  {
   "property": "C46",
   "status": "proved",
   "theorems": [
    "Nebula.C46_table",
    "Nebula.C46_result",
    "Nebula.C46_int_text",
    "Nebula.C46_same",
    "Nebula.C46_bool_always_fails"
   ],
   "note": "Type casting: the table of allowed casts, the result is of the target type, NULL or EMPTY, integer text, identity. C46_bool_always_fails: casts of numbers and dates to BOOL pass the static check and evaluate to the type error."
  },
  {
   "property": "C47",
   "status": "partial",
   "theorems": [
    "Nebula.Agg.C47_sum_error",
    "Nebula.Agg.C47_avg_error",
    "Nebula.Agg.C47_count",
    "Nebula.Agg.C47_sum_int",
    "Nebula.Agg.C47_sum_exact",
    "Nebula.Agg.C47_max_min",
    "Nebula.Agg.C47_max_min_order",
    "Nebula.Agg.C47_max_nan_violated",
    "Nebula.Agg.C47_bits",
    "Nebula.Agg.C47_collect",
    "Nebula.Agg.C47_collect_set",
    "Nebula.Agg.C47_sticky",
    "Nebula.Agg.C47_type_error",
    "Nebula.Agg.C47_avg",
    "Nebula.Agg.C47_std_two",
    "Nebula.Agg.C47_distinct",
    "Nebula.Agg.C47_order",
    "Nebula.Agg.C47_defined",
    "Nebula.Agg.C47_expression",
    "Nebula.Agg.C47_name_case",
    "Nebula.Agg.C47_names",
    "Nebula.Agg.C47_std_formula",
    "Nebula.Agg.C47_std",
    "Nebula.Agg.C47_std_error"
   ],
   "note": "COUNT, SUM (integers in full incl. overflow; any finite numbers within a proved error bound, C47_sum_error), AVG (within a proved error bound, C47_avg_error; one rounding when partial sums are exact), STD (C47_std, C47_std_formula; within a proved error bound, C47_std_error), MAX/MIN on every strictly weakly ordered set of values, bit functions bit by bit, COLLECT, COLLECT_SET, sticky errors, type errors, DISTINCT, order independence, definedness. C47_max_nan_violated: NaN makes MAX depend on the order."
  },
  {
   "property": "C48",
   "status": "proved",
   "theorems": [
    "Nebula.Storage.C48_partition",
    "Nebula.Storage.C48_unknown",
    "Nebula.Storage.C48_no_parts_violated",
    "Nebula.Storage.C48_host_parts"
   ],
   "note": "C48_partition, C48_unknown, C48_host_parts for every positive number of parts below 2^31. C48_no_parts_violated: a space with 0 parts aborts the process."
  },
  {
   "property": "C49",
   "status": "proved",
   "theorems": [
    "Nebula.Storage.C49_single",
    "Nebula.Storage.C49_delivery",
    "Nebula.Storage.C49_exactly_once",
    "Nebula.Storage.C49_terminates",
    "Nebula.Storage.C49_request_found"
   ],
   "note": "C49_delivery (at most once, after every reply, the response is the combination of the replies), C49_exactly_once, C49_terminates, C49_request_found; C49_single for requests to one host. Every operation on the shared response is a step of its own, for every interleaving."
  },
  {
   "property": "C50",
   "status": "partial",
   "theorems": [
    "Nebula.Storage.C50_completeness_partial",
    "Nebula.Storage.C50_completeness_violated"
   ],
   "note": "C50_completeness_partial: for every call with at least one request (and fewer than 2^64/100). C50_completeness_violated: without requests it succeeds with completeness 0."
  },
  {
   "property": "C51",
   "status": "partial",
   "theorems": [
    "Nebula.Meta.C51_get_partial",
    "Nebula.Meta.C51_pick",
    "Nebula.Meta.C51_pick_defined",
    "Nebula.Meta.C51_round_robin",
    "Nebula.Meta.C51_every_host",
    "Nebula.Meta.C51_load",
    "Nebula.Meta.C51_load_next",
    "Nebula.Meta.C51_get_violated"
   ],
   "note": "C51_get_partial: for every history in which a get is not interrupted between its look-up and its choice. C51_get_violated: an interrupted get overwrites a leader reported meanwhile. For every schedule: C51_pick, C51_pick_defined, C51_round_robin, C51_every_host, C51_load."
  },
  {
   "property": "C52",
   "status": "proved",
   "theorems": [
    "Nebula.Meta.C52_notifications",
    "Nebula.Meta.C52_exact"
   ],
   "note": "C52_notifications: the notifications are an execution of a strict receiver protocol from the old view of the host to the new one. C52_exact: a part is reported added/updated/removed exactly if it was. Views are defined from the allocation (peer lists), not from the code's maps."
  },
  {
   "property": "C53",
   "status": "partial",
   "theorems": [
    "Nebula.Meta.C53_notifications_partial",
    "Nebula.Meta.C53_notifications_violated"
   ],
   "note": "C53_notifications_partial: as C52 for listeners, when no listener that stays has its part's peers changed. C53_notifications_violated: when the peers change the listener is added and then removed, so that the receiver loses it."
  },
  {
   "property": "C54",
   "status": "proved",
   "theorems": [
    "Nebula.Meta.C54_bounded_once",
    "Nebula.Meta.C54_counts",
    "Nebula.Meta.C54_success_iff",
    "Nebula.Meta.C54_next_host"
   ],
   "note": "C54_bounded_once, C54_counts, C54_success_iff, C54_next_host. The RPC layer is a parameter (any sequence of outcomes)."
  },
  {
   "property": "C55",
   "status": "proved",
   "theorems": [
    "Nebula.Meta.C55_multiplicity",
    "Nebula.Meta.C55_check_part",
    "Nebula.Meta.C55_check_space"
   ],
   "note": "C55_multiplicity (multiplicity in both directions), C55_check_part, C55_check_space."
  },
  {
   "property": "C56",
   "status": "proved",
   "theorems": [
    "Nebula.Meta.C56_made",
    "Nebula.Meta.C56_layout",
    "Nebula.Meta.C56_disjoint",
    "Nebula.Meta.C56_lookup"
   ],
   "note": "C56_made, C56_layout, C56_disjoint, C56_lookup."
  },
  {
   "property": "C57",
   "status": "proved",
   "theorems": [
    "Nebula.Meta.C57_tags",
    "Nebula.Meta.C57_edges",
    "Nebula.Meta.C57_tag_maps",
    "Nebula.Meta.C57_edge_maps",
    "Nebula.Meta.C57_edge_newest",
    "Nebula.Meta.C57_order_needed"
   ],
   "note": "C57_tags, C57_edges, C57_tag_maps, C57_edge_maps, C57_edge_newest; C57_order_needed exhibits what happens for other orders."
  },
  {
   "property": "C58",
   "status": "proved",
   "theorems": [
    "Nebula.Net.C58_accepts",
    "Nebula.Net.C58_rejects",
    "Nebula.Net.C58_roundtrip",
    "Nebula.Net.C58_colon_violated",
    "Nebula.Net.C58_reprint"
   ],
   "note": "C58_accepts, C58_rejects, C58_roundtrip. C58_reprint: a list read from any text without a NUL is printed and read back. C58_colon_violated: an address with a colon in its name does not survive printing and parsing."
  },
  {
   "property": "C59",
   "status": "proved",
   "theorems": [
    "Nebula.Net.C59_text",
    "Nebula.Net.C59_injective"
   ],
   "note": "C59_text, C59_injective. (The commit has no function that parses a dotted address into an integer.)"
  },
  {
   "property": "C60",
   "status": "proved",
   "theorems": [
    "Nebula.FullText.C60_put_json",
    "Nebula.FullText.C60_search_json",
    "Nebula.FullText.C60_bulk_json",
    "Nebula.FullText.C60_put",
    "Nebula.FullText.C60_search",
    "Nebula.FullText.C60_index",
    "Nebula.FullText.C60_bulk",
    "Nebula.FullText.C60_bulk_empty",
    "Nebula.FullText.C60_bulk_index_violated",
    "Nebula.FullText.C60_unquoted_violated"
   ],
   "note": "C60_put, C60_search, C60_bulk, C60_index against a reader of the POSIX shell quoting rules, for clients and index names without shell characters and every value; C60_put_json, C60_search_json, C60_bulk_json: the data, parsed, is the intended JSON. C60_bulk_index_violated, C60_unquoted_violated: index names and credentials are not escaped."
  },
  {
   "property": "C61",
   "status": "partial",
   "theorems": [
    "Nebula.Regex.C61_expression",
    "Nebula.Web.C61_total",
    "Nebula.Web.C61_first",
    "Nebula.Web.C61_stable",
    "Nebula.Web.C61_exact",
    "Nebula.Web.C61_pattern",
    "Nebula.Web.C61_route",
    "Nebula.Web.C61_twice",
    "Nebula.Web.C61_params",
    "Nebula.Web.C61_anchor_violated",
    "Nebula.Web.C61_method_violated"
   ],
   "note": "C61_total, C61_first, C61_stable, C61_exact, C61_pattern, C61_params, C61_twice (a route that names a parameter twice is refused), C61_route (exactly which route texts are accepted and how they are read), C61_expression. C61_anchor_violated, C61_method_violated: patterns are not anchored and unknown methods throw. Routes with other regular expressions in their text: C157."
  },
  {
   "property": "C62",
   "status": "partial",
   "theorems": [
    "Nebula.Stats.C62_ids",
    "Nebula.Stats.C62_recorded",
    "Nebula.Stats.C62_read_method",
    "Nebula.Stats.C62_percentile",
    "Nebula.Stats.C62_read_percentile",
    "Nebula.Stats.C62_report_partial",
    "Nebula.Stats.C62_dotted_violated",
    "Nebula.Stats.C62_kind_violated"
   ],
   "note": "C62_ids, C62_recorded, C62_read_method, C62_read_percentile, C62_percentile for every history; C62_report_partial for names without dots. C62_dotted_violated, C62_kind_violated. The time series of proxygen/folly are abstracted to the list of added values."
  },
  {
   "property": "C63",
   "status": "partial",
   "theorems": [
    "Nebula.Fs.C63_join",
    "Nebula.Fs.C63_divide_join",
    "Nebula.Fs.C63_divide_parts",
    "Nebula.Fs.C63_dirname_basename_partial",
    "Nebula.Fs.C63_dirname_join_partial",
    "Nebula.Fs.C63_root_violated",
    "Nebula.Fs.C63_dirname_violated",
    "Nebula.Regex.C63_dirname_pattern",
    "Nebula.Regex.C63_basename_pattern"
   ],
   "note": "C63_join, C63_divide_join, C63_divide_parts; C63_dirname_basename_partial and C63_dirname_join_partial for paths whose last name is not empty and without line ends. C63_root_violated, C63_dirname_violated."
  },
  {
   "property": "C64",
   "status": "proved",
   "theorems": [
    "Nebula.Fs.C64_read_back",
    "Nebula.Fs.C64_crash",
    "Nebula.Fs.C64_failed",
    "Nebula.Fs.C64_lost_violated"
   ],
   "note": "C64_read_back, C64_crash, C64_failed. C64_lost_violated: the old id can be lost (a stronger property)."
  },
  {
   "property": "C65",
   "status": "partial",
   "theorems": [
    "Nebula.Meta.C65_cache",
    "Nebula.Meta.C65_only_changed",
    "Nebula.Meta.C65_flags_follow",
    "Nebula.Meta.C65_reads_back",
    "Nebula.Meta.C65_follow_violated",
    "Nebula.Meta.C65_nested_violated"
   ],
   "note": "C65_cache, C65_only_changed, C65_flags_follow, C65_reads_back. C65_follow_violated (mode change, local change, null value) and C65_nested_violated (nested maps are quoted twice)."
  },
  {
   "property": "C66",
   "status": "partial",
   "theorems": [
    "Nebula.C66_append_partial",
    "Nebula.C66_refused",
    "Nebula.C66_append_violated"
   ],
   "note": "Joining case and refusal proved; acceptance of paths that do not join and the undefined behaviour exhibited. C66_append_partial covers first paths without steps."
  },
  {
   "property": "C67",
   "status": "partial",
   "theorems": [
    "Nebula.Wire.C67_image",
    "Nebula.Wire.C67_round_trip_partial",
    "Nebula.Wire.C67_prefix_free",
    "Nebula.Wire.C67_violated",
    "Nebula.Wire.C67_set_violated",
    "Nebula.Wire.C67_repeated_key"
   ],
   "note": "C67_image is the exact characterisation for every value; identity holds for values whose edge/step types are -1, 0, 1 (C67_round_trip_partial); C67_violated and C67_set_violated show the code loses edge types."
  },
  {
   "property": "C68",
   "status": "partial",
   "theorems": [
    "Nebula.Wire.C68_date_partial",
    "Nebula.Wire.C68_vertex_partial",
    "Nebula.Wire.C68_edge_partial",
    "Nebula.Wire.C68_path_partial",
    "Nebula.Wire.C68_list_partial",
    "Nebula.Wire.C68_map_partial",
    "Nebula.Wire.C68_set_partial",
    "Nebula.Wire.C68_dataSet_partial",
    "Nebula.Wire.C68_time_violated",
    "Nebula.Wire.C68_dateTime_violated"
   ],
   "note": "Proved for every structure except Time and DateTime (and Tag/Step, which occur inside Vertex/Path); for Time and DateTime the negation is proved (C68_time_violated, C68_dateTime_violated)."
  },
  {
   "property": "C69",
   "status": "proved",
   "theorems": [
    "Nebula.Wire.C69_keyValue",
    "Nebula.Wire.C69_hostAddr"
   ],
   "note": "Full statement."
  },
  {
   "property": "C70",
   "status": "proved",
   "theorems": [
    "Nebula.Wire.C70_local",
    "Nebula.Wire.C70_truncated"
   ],
   "note": "Locality of deserialisation and rejection of every strict prefix of a serialisation of a value that fits the wire types."
  },
  {
   "property": "C71",
   "status": "partial",
   "theorems": [
    "Nebula.C71_variables",
    "Nebula.C71_aggregates",
    "Nebula.C71_reads_partial",
    "Nebula.C71_reads_violated"
   ],
   "note": "Frame theorem by a relational interpretation of evaluation: variables (C71_variables) and aggregates (C71_aggregates) in full; dependence on the variables read (C71_reads_partial) for expressions without the leftover of C45; C71_reads_violated exhibits the leftover."
  },
  {
   "property": "C72",
   "status": "partial",
   "theorems": [
    "Nebula.Storage.C72_single_partial",
    "Nebula.Storage.C72_single_violated",
    "Nebula.Storage.C72_leader_calls"
   ],
   "note": "C72_leader_calls for multi-host requests; C72_single_partial for single-host requests that get an answer. C72_single_violated: on a failed call the caller is told before the leaders are dropped."
  },
  {
   "property": "C73",
   "status": "partial",
   "theorems": [
    "Nebula.Storage.C73_int_part",
    "Nebula.Storage.C73_int_routing_partial",
    "Nebula.Storage.C73_string_routing",
    "Nebula.Storage.C73_rows_partial",
    "Nebula.Storage.C73_repeat_violated",
    "Nebula.Storage.C73_wrong_type_violated"
   ],
   "note": "C73_int_part, C73_int_routing_partial, C73_string_routing, C73_rows_partial: the routing. C73_repeat_violated: in an integer space the rows of the caller are rewritten and repeating the call aborts. C73_wrong_type_violated: an id of the wrong type aborts."
  },
  {
   "property": "C74",
   "status": "partial",
   "theorems": [
    "Nebula.Storage.C74_forward_partial",
    "Nebula.Storage.C74_rpc_failure_violated",
    "Nebula.Storage.C74_no_end_violated",
    "Nebula.Storage.C74_missing_violated"
   ],
   "note": "C74_forward_partial. C74_rpc_failure_violated, C74_no_end_violated, C74_missing_violated. (The part getValue asks for: C35_getValue_violated.)"
  },
  {
   "property": "C75",
   "status": "proved",
   "theorems": [
    "Nebula.FullText.C75_same_id",
    "Nebula.FullText.C75_id_text"
   ],
   "note": "C75_same_id, C75_id_text, for every digest function with 32 hexadecimal digits and parts from 0 to 2^31-1."
  },
  {
   "property": "C76",
   "status": "proved",
   "theorems": [
    "Nebula.FullText.C76_search_result",
    "Nebula.FullText.C76_rows_kept",
    "Nebula.FullText.C76_failed_rows_violated",
    "Nebula.FullText.C76_status",
    "Nebula.FullText.C76_index_exists"
   ],
   "note": "C76_search_result, C76_rows_kept, C76_status, C76_index_exists. C76_failed_rows_violated: a failed search may have added rows."
  },
  {
   "property": "C77",
   "status": "partial",
   "theorems": [
    "Nebula.Fs.C77_makeDir_concurrent",
    "Nebula.Fs.C77_makeDir",
    "Nebula.Fs.C77_makeDir_refused",
    "Nebula.Fs.C77_link_violated"
   ],
   "note": "C77_makeDir, C77_makeDir_concurrent, C77_makeDir_refused in a model of the file system without links on the way, `..` and permissions. C77_link_violated."
  },
  {
   "property": "C78",
   "status": "partial",
   "theorems": [
    "Nebula.Fs.C78_gone",
    "Nebula.Fs.C78_recursive",
    "Nebula.Fs.C78_flat",
    "Nebula.Fs.C78_left",
    "Nebula.Fs.C78_nonempty_violated",
    "Nebula.Fs.C78_partial_violated"
   ],
   "note": "C78_gone, C78_recursive, C78_flat, C78_left. C78_nonempty_violated (against the documentation), C78_partial_violated."
  },
  {
   "property": "C79",
   "status": "proved",
   "theorems": [
    "Nebula.Fs.C79_iterate",
    "Nebula.Fs.C79_end",
    "Nebula.Fs.C79_lines_text"
   ],
   "note": "C79_iterate, C79_end, C79_lines_text; std::regex_search is a parameter."
  },
  {
   "property": "C80",
   "status": "partial",
   "theorems": [
    "Nebula.Meta.C80_all_or_nothing",
    "Nebula.Meta.C80_complete",
    "Nebula.Meta.C80_index_by_name",
    "Nebula.Meta.C80_index_violated",
    "Nebula.Meta.C80_hosts_violated"
   ],
   "note": "C80_all_or_nothing, C80_complete, C80_index_by_name. C80_index_violated (index names changed by a failed refresh), C80_hosts_violated (failed host listing not noticed)."
  },
  {
   "property": "C81",
   "status": "proved",
   "theorems": [
    "Nebula.Meta.C81_up_to_date",
    "Nebula.Meta.C81_round",
    "Nebula.Meta.C81_same_time_violated"
   ],
   "note": "C81_up_to_date, C81_round, for a server that stamps each change with a later time, at once with the change. C81_same_time_violated shows that this is needed."
  },
  {
   "property": "C82",
   "status": "proved",
   "theorems": [
    "Nebula.Func.C82_lookup",
    "Nebula.Func.C82_case",
    "Nebula.Func.C82_arguments_present",
    "Nebula.Func.C82_signature_arity"
   ],
   "note": "C82_lookup, C82_case, C82_arguments_present, C82_signature_arity."
  },
  {
   "property": "C83",
   "status": "partial",
   "theorems": [
    "Nebula.Func.C83_null",
    "Nebula.Func.C83_declared_type_partial",
    "Nebula.Func.C83_strcasecmp_violated"
   ],
   "note": "C83_declared_type_partial (all functions but strcasecmp), C83_null; C83_strcasecmp_violated exhibits the exception."
  },
  {
   "property": "C84",
   "status": "partial",
   "theorems": [
    "Nebula.Func.C84_pure_partial",
    "Nebula.Func.C84_rand_violated",
    "Nebula.Func.C84_rand_range",
    "Nebula.Func.C84_rand32_violated",
    "Nebula.Func.C84_rand32_max_partial",
    "Nebula.Func.C84_rand64_max",
    "Nebula.Func.C84_rand_refused"
   ],
   "note": "C84_pure_partial (all functions but rand), C84_rand_range, C84_rand_refused; C84_rand_violated and C84_rand32_violated exhibit the exceptions. C84_rand64_max: the bounds of rand64 and the widths of the forms without bounds."
  },
  {
   "property": "C85",
   "status": "partial",
   "theorems": [
    "Nebula.Func.C85_datetime_violated",
    "Nebula.Func.C85_datetime_map",
    "Nebula.Func.C85_time_map",
    "Nebula.Func.C85_date_map",
    "Nebula.Func.C85_local_text",
    "Nebula.Func.C85_returns_partial",
    "Nebula.Func.C85_abs_violated",
    "Nebula.Func.C85_head_last_violated",
    "Nebula.Func.C85_pad_violated",
    "Nebula.Func.C85_cell",
    "Nebula.Func.C85_cell_named",
    "Nebula.Func.C85_short_row_violated",
    "Nebula.Func.C85_range",
    "Nebula.Func.C85_progression",
    "Nebula.Func.C85_range_violated",
    "Nebula.Func.C85_hash_violated",
    "Nebula.Func.C85_tointeger_violated"
   ],
   "note": "C85_returns_partial (functions outside the list risky), C85_range, C85_progression, C85_cell, C85_cell_named; for the functions in the list the exact exceptions: C85_abs_violated, C85_head_last_violated, C85_pad_violated, C85_range_violated, C85_short_row_violated, C85_hash_violated, C85_tointeger_violated, C85_datetime_violated, C118_undefined, C88_pow_int. Not characterised exactly: time and datetime."
  },
  {
   "property": "C86",
   "status": "partial",
   "theorems": [
    "Nebula.Func.C86_split",
    "Nebula.Func.C86_split_empty",
    "Nebula.Func.C86_split_join",
    "Nebula.Func.C86_replace",
    "Nebula.Func.C86_replace_empty",
    "Nebula.Func.C86_left_right",
    "Nebula.Func.C86_left_right_negative",
    "Nebula.Func.C86_substr_partial",
    "Nebula.Func.C86_substr_rest_partial",
    "Nebula.Func.C86_substr_negative",
    "Nebula.Func.C86_substr_violated",
    "Nebula.Func.C86_left_substr",
    "Nebula.Func.C86_pad",
    "Nebula.Func.C86_pad_cut_partial",
    "Nebula.Func.C86_trim",
    "Nebula.Func.C86_ltrim_rtrim",
    "Nebula.Func.C86_white_space",
    "Nebula.Func.C86_case",
    "Nebula.Func.C86_reverse",
    "Nebula.Func.C86_strcasecmp",
    "Nebula.Func.C86_strcasecmp_order",
    "Nebula.Func.C86_conversions",
    "Nebula.Func.C86_tostring_float"
   ],
   "note": "C86_split, C86_split_join, C86_replace, C86_left_right, C86_pad, C86_trim, C86_ltrim_rtrim, C86_case, C86_reverse, C86_strcasecmp, C86_conversions; C86_substr_partial and C86_pad_cut_partial for lengths below 2^31; C86_substr_violated exhibits longer ones. C86_strcasecmp_order: the sign."
  },
  {
   "property": "C87",
   "status": "partial",
   "theorems": [
    "Nebula.Func.C87_list",
    "Nebula.Func.C87_tail_empty",
    "Nebula.Func.C87_size",
    "Nebula.Func.C87_coalesce",
    "Nebula.Func.C87_coalesce_null",
    "Nebula.Func.C87_is_in",
    "Nebula.Func.C87_is_in_iff",
    "Nebula.Func.C87_keys",
    "Nebula.Func.C87_properties",
    "Nebula.Func.C87_keys_properties",
    "Nebula.Func.C87_tags",
    "Nebula.Func.C87_edge",
    "Nebula.Func.C87_edge_nodes_partial",
    "Nebula.Func.C87_edge_nodes_violated",
    "Nebula.Func.C87_path",
    "Nebula.Func.C87_path_ends",
    "Nebula.Func.C87_reversepath",
    "Nebula.Func.C87_reversepath_ends",
    "Nebula.Func.C87_same_in_path"
   ],
   "note": "C87_list, C87_size, C87_coalesce, C87_is_in_iff, C87_keys, C87_properties, C87_keys_properties, C87_edge, C87_path, C87_path_ends, C87_reversepath, C87_same_in_path; C87_edge_nodes_partial for edges seen from their source, C87_edge_nodes_violated for the others."
  },
  {
   "property": "C88",
   "status": "partial",
   "theorems": [
    "Nebula.Func.C88_timestamp_text",
    "Nebula.Func.C88_rounding",
    "Nebula.Func.C88_rounding_int_partial",
    "Nebula.Func.C88_rounding_int_violated",
    "Nebula.Func.C88_sign_abs",
    "Nebula.Func.C88_sign_abs_float",
    "Nebula.Func.C88_bits",
    "Nebula.Func.C88_domain",
    "Nebula.Func.C88_domain_float",
    "Nebula.Func.C88_library",
    "Nebula.Func.C88_log_zone_violated",
    "Nebula.Func.C88_timestamp",
    "Nebula.Func.C88_cos_odd",
    "Nebula.Func.C88_cos",
    "Nebula.Func.C88_pow",
    "Nebula.Func.C88_pow_int",
    "Nebula.Func.C88_radians"
   ],
   "note": "C88_rounding, C88_sign_abs, C88_bits, C88_domain, C88_cos, C88_timestamp; C88_rounding_int_partial up to 2^53, C88_rounding_int_violated beyond; C88_log_zone_violated. The functions of the mathematical library are parameters. C88_domain_float: FLOAT arguments; C88_library: each name asks the library for the function of that name."
  },
  {
   "property": "C89",
   "status": "proved",
   "theorems": [
    "Nebula.C89_components",
    "Nebula.C89_property",
    "Nebula.C89_builtin",
    "Nebula.C89_subscript",
    "Nebula.C89_subscript_absent",
    "Nebula.C89_exists",
    "Nebula.C89_exists_violated",
    "Nebula.C89_other"
   ],
   "note": "C89_components, C89_property, C89_builtin, C89_subscript, C89_exists, C89_other; C89_exists_violated shows that exists does not see the built-in names. Names that begin with an underscore and are not built in: see C45. C89_subscript_absent: names that are absent."
  },
  {
   "property": "C90",
   "status": "partial",
   "theorems": [
    "Nebula.C90_path",
    "Nebula.C90_refused_partial",
    "Nebula.C90_violated"
   ],
   "note": "C90_path for joined items, C90_refused_partial for a later item that does not join; C90_violated shows the unchecked first edge and the unchecked ids."
  },
  {
   "property": "C91",
   "status": "partial",
   "theorems": [
    "Nebula.C91_list",
    "Nebula.C91_set",
    "Nebula.C91_map",
    "Nebula.C91_increment",
    "Nebula.C91_increment_versioned_violated",
    "Nebula.C91_increment_other",
    "Nebula.C91_tests"
   ],
   "note": "C91_list, C91_set (values equal to themselves: no NaN), C91_map, C91_increment, C91_increment_other, C91_tests. Violated: C91_increment_versioned_violated."
  },
  {
   "property": "C92",
   "status": "proved",
   "theorems": [
    "Nebula.Wire.C92_auth",
    "Nebula.Wire.C92_exec",
    "Nebula.Wire.C92_exec_plain",
    "Nebula.Wire.C92_plan",
    "Nebula.Wire.C92_node",
    "Nebula.Wire.C92_stats",
    "Nebula.Wire.C92_branch",
    "Nebula.Wire.C92_pair",
    "Nebula.Wire.C92_auth_newer",
    "Nebula.Wire.C92_exec_newer",
    "Nebula.Wire.C92_plan_newer",
    "Nebula.Wire.C92_node_newer",
    "Nebula.Wire.C92_stats_newer",
    "Nebula.Wire.C92_branch_newer",
    "Nebula.Wire.C92_auth_required",
    "Nebula.Wire.C92_exec_required",
    "Nebula.Wire.C92_plan_required",
    "Nebula.Wire.C92_node_required",
    "Nebula.Wire.C92_stats_required",
    "Nebula.Wire.C92_branch_required",
    "Nebula.Wire.C92_pair_required",
    "Nebula.Wire.C92_auth_truncated",
    "Nebula.Wire.C92_exec_truncated"
   ],
   "note": "Machine model of the generated readers with all optional-field subsets; unknown trailing fields at top level of each structure; truncation for the two answers."
  },
  {
   "property": "C93",
   "status": "partial",
   "theorems": [
    "Nebula.Wire.C93_auth_partial",
    "Nebula.Wire.C93_auth_violated",
    "Nebula.Wire.C93_stats",
    "Nebula.Wire.C93_node_partial",
    "Nebula.Wire.C93_plan_partial",
    "Nebula.Wire.C93_plan_violated",
    "Nebula.Wire.C93_exec",
    "Nebula.Wire.C93_exec_reuse",
    "Nebula.Wire.C93_auth_reuse_partial",
    "Nebula.Wire.C93_auth_reuse_violated"
   ],
   "note": "Proved as the code compares; the components it leaves out (time zone name, output variable, optimiser time) and the stale time zone are exhibited."
  },
  {
   "property": "C94",
   "status": "partial",
   "theorems": [
    "Nebula.Expr.C94_meaning",
    "Nebula.Expr.C94_equivalence_partial",
    "Nebula.Expr.C94_float_reflexive",
    "Nebula.Expr.C94_float_symmetric_partial",
    "Nebula.Expr.C94_itself",
    "Nebula.Expr.C94_text_violated",
    "Nebula.Expr.C94_null_violated",
    "Nebula.Expr.C94_value_partial",
    "Nebula.Expr.C94_value_violated",
    "Nebula.Expr.C94_distinct_violated"
   ],
   "note": "Exact meaning of == proved for all trees without text search and null pointers; equivalence for constants without floats; equal values proved when constants are identical and DISTINCT flags agree. Violations exhibited. With floats: C94_float_reflexive and C94_float_symmetric_partial; transitivity fails for floats (C11)."
  },
  {
   "property": "C95",
   "status": "partial",
   "theorems": [
    "Nebula.Expr.C95_clone_partial",
    "Nebula.Expr.C95_copy_partial",
    "Nebula.Expr.C95_defined",
    "Nebula.Expr.C95_text_violated",
    "Nebula.Expr.C95_text_partial"
   ],
   "note": "Copy is the identity on all trees without text search whose property expressions are as their constructors make them; definedness exact. Text searches and null pointers exhibited. That the copy shares no object with the original is C145."
  },
  {
   "property": "C96",
   "status": "partial",
   "theorems": [
    "Nebula.Conf.C96_fetch",
    "Nebula.Conf.C96_subconf",
    "Nebula.Conf.C96_array_partial",
    "Nebula.Conf.C96_array_rest",
    "Nebula.Conf.C96_array_typed",
    "Nebula.Conf.C96_array_violated",
    "Nebula.Conf.C96_not_object_violated",
    "Nebula.Conf.C96_upsert"
   ],
   "note": "Exact for scalars, nested configurations, the text update and arrays of one type (C96_array_typed); arrays with an element that does not convert partial (a prefix is left behind, exhibited). C96_array_rest says exactly what a failed fetch of an array leaves behind."
  },
  {
   "property": "C97",
   "status": "partial",
   "theorems": [
    "Nebula.Conf.C97_lines",
    "Nebula.Conf.C97_dump_partial",
    "Nebula.Conf.C97_items_partial",
    "Nebula.Conf.C97_double_violated",
    "Nebula.Conf.C97_writable",
    "Nebula.Conf.C97_reread_partial",
    "Nebula.Conf.C97_rest",
    "Nebula.Conf.C97_repeated",
    "Nebula.Conf.C97_unicode"
   ],
   "note": "C97_dump_partial and C97_items_partial for configurations whose doubles have a text with a fraction or exponent (C97_double_violated shows why); C97_reread_partial: every configuration that was read meets the other conditions (64-bit integers, distinct keys, depth at most 100). C97_writable: exactly which configurations can be written. C97_rest, C97_repeated and C97_unicode say what other texts mean. C97_lines: the number of line ends, for texts of doubles without one."
  },
  {
   "property": "C98",
   "status": "partial",
   "theorems": [
    "Nebula.Conf.C98_comments",
    "Nebula.Conf.C98_plain_file",
    "Nebula.Conf.C98_string_violated",
    "Nebula.Conf.C98_nul_violated",
    "Nebula.Regex.C98_pattern"
   ],
   "note": "The effect of the comment rule is exact for all files without NUL; marks in strings and NUL exhibited as violations."
  },
  {
   "property": "C99",
   "status": "partial",
   "theorems": [
    "Nebula.Conf.C99_modes",
    "Nebula.Conf.C99_declared_partial",
    "Nebula.Conf.C99_unknown",
    "Nebula.Conf.C99_nested_violated",
    "Nebula.Conf.C99_exception_violated",
    "Nebula.Conf.C99_module"
   ],
   "note": "Exact for flags whose text has the meaning of their type; the other cases are exhibited. gflags' text conversions are parameters."
  },
  {
   "property": "C100",
   "status": "partial",
   "theorems": [
    "Nebula.Web.C100_set",
    "Nebula.Web.C100_bad_text",
    "Nebula.Web.C100_crash_violated"
   ],
   "note": "Complete for objects of scalars and for malformed or empty bodies; crashes exhibited. gflags' acceptance rule is a parameter that may depend on everything but the current text; NUL in names excluded; - and _ in names not identified."
  },
  {
   "property": "C101",
   "status": "partial",
   "theorems": [
    "Nebula.Web.C101_text",
    "Nebula.Web.C101_verbose_partial",
    "Nebula.Web.C101_all",
    "Nebula.Web.C101_json",
    "Nebula.Web.C101_json_all",
    "Nebula.Web.C101_verbose_all",
    "Nebula.Web.C101_after_set",
    "Nebula.Web.C101_verbose_violated",
    "Nebula.Web.C101_unsigned_violated"
   ],
   "note": "Both formats, named and all flags, verbose or not. Crash for unknown names in verbose plain form and wrapped unsigned values exhibited."
  },
  {
   "property": "C102",
   "status": "proved",
   "theorems": [
    "Nebula.Web.C102_text",
    "Nebula.Web.C102_all",
    "Nebula.Web.C102_json",
    "Nebula.Web.C102_all_json",
    "Nebula.Web.C102_status",
    "Nebula.Web.C102_method"
   ],
   "note": "Plain and JSON forms, with names and without, every format parameter; status, and refusal of other methods. StatsManager's reading is a parameter here (C62 proves it)."
  },
  {
   "property": "C103",
   "status": "proved",
   "theorems": [
    "Nebula.Meta.C103_login",
    "Nebula.Meta.C103_account",
    "Nebula.Meta.C103_roles",
    "Nebula.Meta.C103_not_ready",
    "Nebula.Meta.C103_ready"
   ],
   "note": "For every history of the client, at every state other threads may see; lists with distinct names (a map on the wire)."
  },
  {
   "property": "C104",
   "status": "partial",
   "theorems": [
    "Nebula.Meta.C104_bounded",
    "Nebula.Meta.C104_forever",
    "Nebula.Meta.C104_stopped",
    "Nebula.Meta.C104_attempt",
    "Nebula.Meta.C104_healthy",
    "Nebula.Meta.C104_stop_after",
    "Nebula.Meta.C104_stop_violated"
   ],
   "note": "Complete for the wait itself; the race between stop and wait is exhibited as a violation, and excluded by C104_stop_after."
  },
  {
   "property": "C105",
   "status": "partial",
   "theorems": [
    "Nebula.Meta.C105_one_cluster",
    "Nebula.Meta.C105_learnt",
    "Nebula.Meta.C105_kept",
    "Nebula.Meta.C105_unreadable_violated"
   ],
   "note": "Complete while the file can be read; an unreadable file after a restart is exhibited as a violation."
  },
  {
   "property": "C106",
   "status": "partial",
   "theorems": [
    "Nebula.Meta.C106_by_space",
    "Nebula.Meta.C106_by_schema",
    "Nebula.Meta.C106_by_name_partial",
    "Nebula.Meta.C106_history_partial",
    "Nebula.Meta.C106_clients",
    "Nebula.Meta.C106_not_ready",
    "Nebula.Meta.C106_by_name_violated"
   ],
   "note": "Complete for listed names; the lookup of a name that is not listed is exhibited as a violation."
  },
  {
   "property": "C107",
   "status": "proved",
   "theorems": [
    "Nebula.Meta.C107_holds",
    "Nebula.Meta.C107_tag_schema",
    "Nebula.Meta.C107_edge_schema",
    "Nebula.Meta.C107_across_refresh",
    "Nebula.Meta.C107_names",
    "Nebula.Meta.C107_schema_id",
    "Nebula.Meta.C107_all_latest",
    "Nebula.Meta.C107_space",
    "Nebula.Meta.C107_indexes",
    "Nebula.Meta.C107_unknown",
    "Nebula.Meta.C107_not_ready"
   ],
   "note": "For every state that holds the answers of a complete refresh of a server that lists ids, names and versions once; index lookup by name belongs to C80."
  },
  {
   "property": "C108",
   "status": "partial",
   "theorems": [
    "Nebula.Process.C108_pid",
    "Nebula.Process.C108_file",
    "Nebula.Process.C108_round_trip",
    "Nebula.Process.C108_second",
    "Nebula.Process.C108_race_violated",
    "Nebula.Process.C108_no_race",
    "Nebula.Process.C108_file_violated",
    "Nebula.Process.C108_output",
    "Nebula.Process.C108_exit_violated",
    "Nebula.Regex.C108_pattern"
   ],
   "note": "Complete for one process at a time; the race of two starting processes, odd pid files and ignored exit statuses are exhibited as violations."
  },
  {
   "property": "C109",
   "status": "partial",
   "theorems": [
    "Nebula.Http.C109_options",
    "Nebula.Http.C109_data",
    "Nebula.Http.C109_methods",
    "Nebula.Http.C109_map",
    "Nebula.Http.C109_data_violated",
    "Nebula.Http.C109_hdfs",
    "Nebula.Http.C109_hdfs_violated",
    "Nebula.Http.C109_answer",
    "Nebula.Http.C109_failed_violated"
   ],
   "note": "Complete for texts without shell characters; what happens with others is exhibited as violations."
  },
  {
   "property": "C110",
   "status": "partial",
   "theorems": [
    "Nebula.Thrift.C110_client",
    "Nebula.Thrift.C110_reuse",
    "Nebula.Thrift.C110_names_violated",
    "Nebula.Thrift.C110_options_violated"
   ],
   "note": "Complete for IP addresses; host names that are never reused and ignored options are exhibited as violations."
  },
  {
   "property": "C111",
   "status": "partial",
   "theorems": [
    "Nebula.Signal.C111_general",
    "Nebula.Signal.C111_fatal",
    "Nebula.Signal.C111_ignored",
    "Nebula.Signal.C111_default",
    "Nebula.Signal.C111_list",
    "Nebula.Signal.C111_installed",
    "Nebula.Signal.C111_refused",
    "Nebula.Signal.C111_accepted",
    "Nebula.Signal.C111_handler_partial",
    "Nebula.Signal.C111_once_violated",
    "Nebula.Signal.C111_window_violated"
   ],
   "note": "Complete for signals that do not arrive during the installation of their first handler; that window and the double run for SIGCHLD are exhibited as violations."
  },
  {
   "property": "C112",
   "status": "partial",
   "theorems": [
    "Nebula.ObjPool.C112_order",
    "Nebula.ObjPool.C112_clear",
    "Nebula.ObjPool.C112_exclusive",
    "Nebula.ObjPool.C112_destroy",
    "Nebula.ObjPool.C112_empty",
    "Nebula.ObjPool.C112_twice_violated",
    "Nebula.ObjPool.C112_inside_violated"
   ],
   "note": "Complete for objects added once with destructors that do not use the pool; the others are exhibited as violations."
  },
  {
   "property": "C113",
   "status": "partial",
   "theorems": [
    "Nebula.Net.C113_device",
    "Nebula.Net.C113_list",
    "Nebula.Net.C113_addresses",
    "Nebula.Net.C113_failure",
    "Nebula.Net.C113_missing_violated",
    "Nebula.Net.C113_resolve"
   ],
   "note": "Complete for interfaces that have addresses; the null address is exhibited as a violation. C113_addresses: the list of addresses; C113_failure: errors when the interfaces cannot be listed."
  },
  {
   "property": "C114",
   "status": "partial",
   "theorems": [
    "Nebula.Net.C114_in_use",
    "Nebula.Net.C114_range",
    "Nebula.Net.C114_skipped",
    "Nebula.Net.C114_available_partial",
    "Nebula.Net.C114_digits_violated",
    "Nebula.Net.C114_zero_violated",
    "Nebula.Net.C114_low_violated",
    "Nebula.Regex.C114_pattern"
   ],
   "note": "Complete for dynamic ranges that begin above 1025; the others are exhibited as violations, and so are ports read from more than four digits (C114_digits_violated). C114_pattern: the matcher is the regular expression in the code."
  },
  {
   "property": "C115",
   "status": "proved",
   "theorems": [
    "Nebula.Hex.C115_form",
    "Nebula.Hex.C115_read",
    "Nebula.Hex.C115_injective"
   ],
   "note": ""
  },
  {
   "property": "C116",
   "status": "partial",
   "theorems": [
    "Nebula.Tsc.C116_seconds",
    "Nebula.Tsc.C116_milliseconds",
    "Nebula.Tsc.C116_microseconds",
    "Nebula.Tsc.C116_order",
    "Nebula.Tsc.C116_fast",
    "Nebula.Tsc.C116_fast_other",
    "Nebula.Tsc.C116_slow",
    "Nebula.Tsc.C116_slow_op",
    "Nebula.Tsc.C116_back_violated",
    "Nebula.Tsc.C116_drift_violated",
    "Nebula.Tsc.C116_slow_violated"
   ],
   "note": "Complete between two measurements of the rate; going back after a new measurement, drift and slow counters are exhibited as violations."
  },
  {
   "property": "C117",
   "status": "partial",
   "theorems": [
    "Nebula.Value.C117_arithmetic",
    "Nebula.Value.C117_division",
    "Nebula.Value.C117_small_violated",
    "Nebula.Value.C117_monotone",
    "Nebula.Value.C117_remainder",
    "Nebula.Value.C117_exact"
   ],
   "note": "Complete for divisors above 1e-8; smaller ones count as zero, exhibited as a violation. Integers beyond 2^53 are first rounded to a double."
  },
  {
   "property": "C118",
   "status": "partial",
   "theorems": [
    "Nebula.Func.C118_functions",
    "Nebula.C118_date",
    "Nebula.C118_time",
    "Nebula.C118_datetime",
    "Nebula.C118_exists",
    "Nebula.C118_accepts",
    "Nebula.C118_undefined",
    "Nebula.C118_short_violated",
    "Nebula.C118_year_only_violated",
    "Nebula.C118_fraction_violated",
    "Nebula.C118_padding_violated",
    "Nebula.C118_year_violated",
    "Nebula.C118_second_violated",
    "Nebula.C118_rest_violated"
   ],
   "note": "Complete for years of four digits and times without a fraction; C118_accepts and C118_undefined characterise date texts exactly; the violated theorems exhibit the exceptions. The library's reading of numbers is a contract (ReadsNumbers) met by a model of libstdc++ 13 and by a strict reader."
  },
  {
   "property": "C119",
   "status": "partial",
   "theorems": [
    "Nebula.C119_value_partial",
    "Nebula.C119_edge_partial",
    "Nebula.C119_vertex_partial",
    "Nebula.C119_path_partial",
    "Nebula.C119_dataset_partial",
    "Nebula.C119_quote_violated",
    "Nebula.C119_empty_violated",
    "Nebula.C119_key_violated",
    "Nebula.C119_float_violated",
    "Nebula.C119_vertex_violated",
    "Nebula.C119_hash_text"
   ],
   "note": "C119_value_partial covers the values named in the statement (PlainV); C119_edge_partial, C119_vertex_partial (any number of tags), C119_path_partial and C119_dataset_partial edges, vertices, paths and data sets made of them; the violated theorems show why floats, quotation marks, empty sets, arbitrary keys and names are left out."
  },
  {
   "property": "C120",
   "status": "partial",
   "theorems": [
    "Nebula.Expr.C120_search_text",
    "Nebula.Expr.C120_search_partial",
    "Nebula.Expr.C120_limit_violated",
    "Nebula.Expr.C120_text_partial",
    "Nebula.Expr.C120_cast_violated",
    "Nebula.Expr.C120_property_violated",
    "Nebula.Expr.C120_inner_violated",
    "Nebula.Expr.C120_container_violated",
    "Nebula.Expr.C120_call_violated",
    "Nebula.Expr.C120_search_violated",
    "Nebula.Expr.C120_undefined_violated"
   ],
   "note": "C120_text_partial covers the expressions of the inductive predicate Plain (30 forms, all kinds but text search, tag and edge properties); C120_search_text and C120_search_partial say exactly when two text searches have the same text. The violated theorems show why the others are left out and what a text search leaves open."
  },
  {
   "property": "C121",
   "status": "partial",
   "theorems": [
    "Nebula.Func.C121_null_partial",
    "Nebula.Func.C121_hash_violated",
    "Nebula.Func.C121_is_in_violated",
    "Nebula.Func.C121_near_violated",
    "Nebula.Func.C121_cos_partial",
    "Nebula.Func.C121_cos_violated",
    "Nebula.Func.C121_call_partial"
   ],
   "note": "C121_null_partial (all functions but four), C121_call_partial by name, C121_cos_partial for an even number of arguments; the four exceptions are the violated theorems."
  },
  {
   "property": "C122",
   "status": "partial",
   "theorems": [
    "Nebula.C122_constant",
    "Nebula.C122_fold_partial",
    "Nebula.C122_rand_violated",
    "Nebula.C122_fold_violated"
   ],
   "note": "C122_constant for every closed expression (attributes with known names, XOR with operands, no rand), C122_fold_partial for replacing those that set no variable and contain no attribute and no XOR; C122_rand_violated and C122_fold_violated show the exceptions."
  },
  {
   "property": "C123",
   "status": "partial",
   "theorems": [
    "Nebula.Meta.C123_success",
    "Nebula.Meta.C123_once",
    "Nebula.Meta.C123_reached",
    "Nebula.Meta.C123_segment",
    "Nebula.Meta.C123_refused",
    "Nebula.Meta.C123_refused_sends_nothing",
    "Nebula.Meta.C123_put",
    "Nebula.Meta.C123_remove",
    "Nebula.Meta.C123_remove_range",
    "Nebula.Meta.C123_read",
    "Nebula.Meta.C123_put_get",
    "Nebula.Meta.C123_remove_scan",
    "Nebula.Meta.C123_atomic_violated",
    "Nebula.Meta.C123_create_violated",
    "Nebula.Regex.C123_pattern"
   ],
   "note": "C123_segment, C123_refused, C123_refused_sends_nothing, C123_success, C123_once, C123_reached, C123_put, C123_remove, C123_remove_range, C123_read, C123_put_get, C123_remove_scan; C123_atomic_violated with other clients, C123_create_violated for a request that is not idempotent. The server is a specification (KvSpec), it is not part of the repository."
  },
  {
   "property": "C124",
   "status": "proved",
   "theorems": [
    "Nebula.Meta.C124_load",
    "Nebula.Meta.C124_by_host",
    "Nebula.Meta.C124_by_part",
    "Nebula.Meta.C124_by_type",
    "Nebula.Meta.C124_unique",
    "Nebula.Meta.C124_not_ready",
    "Nebula.Meta.C124_all",
    "Nebula.Meta.C124_remote",
    "Nebula.Meta.C124_indexed"
   ],
   "note": "Keeps relates a cache to the server's answers in any iteration order (C124_load: loading establishes it). C124_by_host, C124_by_part, C124_by_type, C124_unique, C124_all, C124_not_ready, C124_remote (each lookup may see another cache), C124_indexed."
  },
  {
   "property": "C125",
   "status": "partial",
   "theorems": [
    "Nebula.Http.C125_download_address",
    "Nebula.Http.C125_ingest_address",
    "Nebula.Http.C125_distinct_partial",
    "Nebula.Http.C125_download_partial",
    "Nebula.Http.C125_ingest",
    "Nebula.Http.C125_download_violated",
    "Nebula.Http.C125_escape_violated"
   ],
   "note": "C125_download_address, C125_ingest_address, C125_distinct_partial, C125_download_partial, C125_ingest; C125_download_violated (value() of an error), C125_escape_violated (no escaping). The shell is that of C109, curl and the web service are not part of the repository."
  },
  {
   "property": "C126",
   "status": "proved",
   "theorems": [
    "Nebula.Storage.C126_put",
    "Nebula.Storage.C126_remove",
    "Nebula.Storage.C126_get",
    "Nebula.Storage.C126_put_get",
    "Nebula.Storage.C126_unknown",
    "Nebula.Storage.C126_untyped",
    "Nebula.Storage.C126_update",
    "Nebula.Storage.C126_uuid",
    "Nebula.Storage.C126_scan",
    "Nebula.Storage.C126_lookup"
   ],
   "note": "C126_put, C126_remove, C126_get, C126_put_get, C126_unknown, C126_untyped, C126_update, C126_uuid, C126_scan, C126_lookup. A part is a map its replicas agree on (KvSpec), all hosts answer; failures of hosts are C49, C50, C72. Keys of eight bytes and others are routed as in C35."
  },
  {
   "property": "C127",
   "status": "partial",
   "theorems": [
    "Nebula.VMem.C127_calls",
    "Nebula.VMem.C127_programs",
    "Nebula.VMem.C127_others_unchanged",
    "Nebula.VMem.C127_assign_part_violated",
    "Nebula.VMem.C127_set_own_payload_violated",
    "Nebula.VMem.C127_assign_whole_violated",
    "Nebula.VMem.C127_move_whole_leaks_violated"
   ],
   "note": "C127_calls, C127_programs, C127_others_unchanged for calls whose two values are the same (assignment, swap) or of which neither contains the other. For the others the property fails: C127_assign_part_violated (v = v.getList().values[0], copy or move: use after free), C127_set_own_payload_violated (v.setStr(v.getStr()): use after free), C127_assign_whole_violated (an element assigned its own list: undefined behaviour), C127_move_whole_leaks_violated (an element given its own list by move: the list is lost). Payloads are their plain contents and the Value objects inside; the copy, move and destructor of a payload work member by member."
  },
  {
   "property": "C128",
   "status": "partial",
   "theorems": [
    "Nebula.Fs.Listing.C128_listing",
    "Nebula.Fs.Listing.C128_files_dirs",
    "Nebula.Fs.Listing.C128_full_path",
    "Nebula.Fs.Listing.C128_unreadable_violated",
    "Nebula.Fs.Listing.C128_unknown_empty",
    "Nebula.Fs.Listing.C128_open_partial",
    "Nebula.Fs.Listing.C128_open_link",
    "Nebula.Fs.Listing.C128_open_link_violated"
   ],
   "note": "C128_listing, C128_files_dirs, C128_full_path, C128_unknown_empty, C128_open_partial, C128_open_link. C128_unreadable_violated: a directory that cannot be read is listed as empty. C128_open_link_violated: an iterator over a link to a device, a pipe, a socket or an unreadable directory ends the process, since the error of the inner call is overwritten. fnmatch, readdir, lstat and realpath are inputs; the file system does not change during a call."
  },
  {
   "property": "C129",
   "status": "partial",
   "theorems": [
    "Nebula.Meta.Admin.C129_understood",
    "Nebula.Meta.Admin.C129_distinct",
    "Nebula.Meta.Admin.C129_success",
    "Nebula.Meta.Admin.C129_ids",
    "Nebula.Meta.Admin.C129_answer",
    "Nebula.Meta.Admin.C129_balance",
    "Nebula.Meta.Admin.C129_config_not_ready",
    "Nebula.Meta.Admin.C129_default_key",
    "Nebula.Meta.Admin.C129_default_shared_violated",
    "Nebula.Meta.Admin.C129_default_segment"
   ],
   "note": "C129_understood, C129_distinct, C129_success, C129_answer, C129_balance, C129_ids, C129_config_not_ready, C129_default_key, C129_default_segment. C129_default_shared_violated: a tag and an edge with the same number share the keys of their default values. The service itself is not in the repository; its reading of requests (AdminSpec) is written from meta.thrift. Structures of the caller are passed on as opaque bytes."
  },
  {
   "property": "C130",
   "status": "partial",
   "theorems": [
    "Nebula.Web.C130_names",
    "Nebula.Web.C130_result",
    "Nebula.Web.C130_ports",
    "Nebula.Web.C130_no_lost_wakeup",
    "Nebula.Web.C130_again_partial",
    "Nebula.Web.C130_destroy_violated",
    "Nebula.Web.C130_dies_partial",
    "Nebula.Web.C130_destroyed",
    "Nebula.Web.C130_routes",
    "Nebula.Web.C130_again_violated",
    "Nebula.Web.C130_notify_violated"
   ],
   "note": "C130_result, C130_ports, C130_no_lost_wakeup, C130_again_partial, C130_routes, C130_destroyed, C130_dies_partial. Violated: after a failed start() the next one returns OK and started() is true (C130_again_violated); destroying a service that made no server follows a null pointer (C130_destroy_violated); the listener may use the condition variable after start() has returned (C130_notify_violated). proxygen's server is the environment of the model."
  },
  {
   "property": "C131",
   "status": "partial",
   "theorems": [
    "Nebula.Wire.C131_value",
    "Nebula.Wire.C131_keyValue_host",
    "Nebula.Wire.C131_answers",
    "Nebula.Wire.C131_size",
    "Nebula.Wire.C131_bound_partial",
    "Nebula.Wire.C131_bound_violated",
    "Nebula.Wire.C131_size_keyValue_host",
    "Nebula.Wire.C131_size_answers",
    "Nebula.Wire.C131_bound_answers_partial"
   ],
   "note": "C131_value, C131_keyValue_host, C131_answers (layout); C131_size, C131_size_keyValue_host, C131_size_answers (sizes); C131_bound_partial and C131_bound_answers_partial need the size to be below 4 GiB: the announced size is a 32-bit number and wraps (C131_bound_violated). ExecutionResponse::serializedSize passes pointers where strings are wanted and is not modelled. The library's own sizes are taken from its documentation."
  },
  {
   "property": "C132",
   "status": "partial",
   "theorems": [
    "Nebula.Storage.C132_request",
    "Nebula.Storage.C132_distributes",
    "Nebula.Storage.C132_refused",
    "Nebula.Storage.C132_single",
    "Nebula.Storage.C132_scan",
    "Nebula.Storage.C132_lookup",
    "Nebula.Storage.C132_forward",
    "Nebula.Storage.C132_value_partial",
    "Nebula.Storage.C132_value_violated"
   ],
   "note": "C132_request, C132_distributes, C132_refused, C132_single, C132_scan, C132_lookup, C132_forward, C132_value_partial. Violated: InternalStorageClient::getValue passes the number of the space where partId wants the number of parts, so that it asks the wrong part, even one that does not exist (C132_value_violated). Structures of the caller are opaque bytes; ids must be of the type of the space (see C73)."
  },
  {
   "property": "C133",
   "status": "partial",
   "theorems": [
    "Nebula.Meta.Shared.C133_no_race_partial",
    "Nebula.Meta.Shared.C133_sound",
    "Nebula.Meta.Shared.C133_race_violated",
    "Nebula.Meta.Shared.C133_no_deadlock",
    "Nebula.Meta.Shared.C133_progress",
    "Nebula.Meta.Shared.C133_writers_alone"
   ],
   "note": "C133_no_race_partial (no race on a member while none of the functions listed for it runs), C133_sound (thirteen members have no such function), C133_writers_alone, C133_progress, C133_no_deadlock. Violated, for every function listed (C133_race_violated): looking up an index by name and the full text services read without the lock the refresh writes under or also lacks, getFTIndexByNameFromCache inserts under a read lock, download, ingest and the heartbeat read the meta leader unlocked, the heartbeat and the configuration read the listener unlocked while it may be unregistered, stop writes its flag and the worker's pointer unlocked, isMetadReady from another thread refreshes beside the worker. Atomics, what the listener does and starvation are outside."
  },
  {
   "property": "C134",
   "status": "partial",
   "theorems": [
    "Nebula.Locks.Objects.C134_no_race_partial",
    "Nebula.Locks.Objects.C134_in_use",
    "Nebula.Locks.Objects.C134_race_violated",
    "Nebula.Locks.Objects.C134_no_deadlock"
   ],
   "note": "C134_no_race_partial (no race on a member while none of the functions that break its locking runs), C134_in_use (nothing races once counters are registered and workers started and the unlocked queries are not used), C134_no_deadlock. Violated, for every such function (C134_race_violated): readAllValue walks the names unlocked, registering moves the lists of counters (documented), total/hits/evicts of the cache, empty of the pool and isReady of the latch read unlocked, start and wait of the worker, failedParts/responses/hostLatency (documented). Constructors, destructors, atomics and waiting on conditions are outside."
  },
  {
   "property": "C135",
   "status": "partial",
   "theorems": [
    "Nebula.WLife.C135_terminates",
    "Nebula.WLife.C135_start_again_violated",
    "Nebula.WLife.C135_stop_wait",
    "Nebula.WLife.C135_running_partial",
    "Nebula.WLife.C135_running_violated",
    "Nebula.WLife.C135_tasks",
    "Nebula.WLife.C135_before_stop_partial",
    "Nebula.WLife.C135_freed_partial",
    "Nebula.WLife.C135_freed_violated",
    "Nebula.WLife.C135_cycles",
    "Nebula.WLife.C135_destroy",
    "Nebula.WLife.C135_destroy_partial",
    "Nebula.WLife.C135_destroy_violated",
    "Nebula.WLife.C135_pool_partial",
    "Nebula.WLife.C135_pool_failed_violated",
    "Nebula.WLife.C135_pool_waited_violated"
   ],
   "note": "C135_terminates (exactly when the process is ended), C135_stop_wait, C135_tasks, C135_destroy (exactly when freed memory is used), C135_cycles; C135_running_partial, C135_before_stop_partial (nobody uses the worker while it is being started), C135_freed_partial (one start), C135_destroy_partial (no timers), C135_pool_partial (starts succeeded). Violated: C135_start_again_violated, C135_running_violated, C135_freed_violated (k starts leave k-1 of each behind), C135_destroy_violated, C135_pool_failed_violated, C135_pool_waited_violated. A turn of the event loop is one step here (C32 has it in detail)."
  },
  {
   "property": "C136",
   "status": "partial",
   "theorems": [
    "Nebula.WLife.C136_value",
    "Nebula.WLife.C136_void_partial",
    "Nebula.WLife.C136_void_violated",
    "Nebula.WLife.C136_foreign_violated",
    "Nebula.WLife.C136_settled",
    "Nebula.WLife.C136_before_stop_partial",
    "Nebula.WLife.C136_stable"
   ],
   "note": "C136_value (tasks with a result, full), C136_settled, C136_stable; C136_void_partial and C136_before_stop_partial. Violated: C136_void_violated (exception sliced to std::exception), C136_foreign_violated (std::terminate)."
  },
  {
   "property": "C137",
   "status": "partial",
   "theorems": [
    "Nebula.Tz.C137_initialised",
    "Nebula.Tz.C137_again",
    "Nebula.Tz.C137_failed_partial",
    "Nebula.Tz.C137_failed_violated",
    "Nebula.Tz.C137_convert",
    "Nebula.Tz.C137_utc",
    "Nebula.Tz.C137_local_violated",
    "Nebula.Tz.C137_local_partial",
    "Nebula.Tz.C137_times",
    "Nebula.Tz.C137_local_time"
   ],
   "note": "C137_initialised, C137_again, C137_convert, C137_times, C137_utc, C137_local_time; C137_local_partial (offset 0) and C137_failed_partial. Violated: C137_local_violated (local date-times off by twice the offset), C137_failed_violated (null zone after a failed region)."
  },
  {
   "property": "C138",
   "status": "proved",
   "theorems": [
    "Nebula.Charset.C138_consistent",
    "Nebula.Charset.C138_charset",
    "Nebula.Charset.C138_collation",
    "Nebula.Charset.C138_supported"
   ],
   "note": "C138_consistent, C138_charset, C138_collation, C138_supported."
  },
  {
   "property": "C139",
   "status": "partial",
   "theorems": [
    "Nebula.Fs.Temp.C139_made",
    "Nebula.Fs.Temp.C139_kept_partial",
    "Nebula.Fs.Temp.C139_apart_partial",
    "Nebula.Fs.Temp.C139_clean_partial",
    "Nebula.Fs.Temp.C139_left_behind",
    "Nebula.Fs.Temp.C139_null_violated",
    "Nebula.Fs.Temp.C139_apart_violated",
    "Nebula.Fs.Temp.C139_clean_violated"
   ],
   "note": "C139_made, C139_left_behind; C139_kept_partial, C139_apart_partial and C139_clean_partial need that no other process removes the paths (the last also that the content can be removed). Violated: C139_null_violated, C139_apart_violated, C139_clean_violated. Paths are taken not to lie inside one another."
  },
  {
   "property": "C140",
   "status": "partial",
   "theorems": [
    "Nebula.Memory.C140_sizes",
    "Nebula.Memory.C140_full",
    "Nebula.Memory.C140_monotone",
    "Nebula.Memory.C140_close",
    "Nebula.Memory.C140_sound_partial",
    "Nebula.Memory.C140_missed_violated",
    "Nebula.Memory.C140_alarm_violated"
   ],
   "note": "C140_sizes, C140_full, C140_monotone, C140_close; C140_sound_partial (at most 2^24 KB). Violated: C140_missed_violated, C140_alarm_violated (rounding to single precision)."
  },
  {
   "property": "C141",
   "status": "partial",
   "theorems": [
    "Nebula.Process.C141_detached",
    "Nebula.Process.C141_error",
    "Nebula.Process.C141_stdin_partial",
    "Nebula.Process.C141_stdin_violated",
    "Nebula.Process.C141_null_violated",
    "Nebula.Process.C141_output_partial",
    "Nebula.Process.C141_output_violated",
    "Nebula.Process.C141_threads_violated"
   ],
   "note": "C141_detached, C141_error; C141_stdin_partial (input open at the start, /dev/null can be opened), C141_output_partial (empty buffers). Violated: C141_stdin_violated, C141_null_violated, C141_output_violated, C141_threads_violated."
  },
  {
   "property": "C142",
   "status": "partial",
   "theorems": [
    "Nebula.Process.C142_tid_partial",
    "Nebula.Process.C142_tid_violated",
    "Nebula.Process.C142_named_partial",
    "Nebula.Process.C142_named_violated",
    "Nebula.Process.C142_scope",
    "Nebula.Process.C142_inside_partial"
   ],
   "note": "C142_scope; C142_tid_partial (no fork after the id was asked for), C142_named_partial and C142_inside_partial (names of at most 15 bytes without NUL). Violated: C142_tid_violated, C142_named_violated."
  },
  {
   "property": "C143",
   "status": "partial",
   "theorems": [
    "Nebula.Fs.C143_file_partial",
    "Nebula.Fs.C143_file_violated",
    "Nebula.Fs.C143_missing_violated",
    "Nebula.Fs.C143_missing",
    "Nebula.Fs.C143_exist",
    "Nebula.Fs.C143_loop",
    "Nebula.Fs.C143_link_partial",
    "Nebula.Fs.C143_link_only",
    "Nebula.Fs.C143_link_violated",
    "Nebula.Fs.C143_disk_partial",
    "Nebula.Fs.C143_disk_error",
    "Nebula.Fs.C143_disk_violated",
    "Nebula.Process.C143_process_partial",
    "Nebula.Process.C143_name_violated",
    "Nebula.Process.C143_named",
    "Nebula.Process.C143_maxPid"
   ],
   "note": "C143_missing, C143_exist, C143_loop, C143_link_only, C143_disk_error, C143_named, C143_maxPid; C143_file_partial (no link), C143_link_partial (at most 1024 bytes), C143_disk_partial (less than 2^64 bytes), C143_process_partial. Violated: C143_file_violated, C143_missing_violated, C143_link_violated, C143_disk_violated, C143_name_violated. Names are full paths; permissions of directories are not modelled."
  },
  {
   "property": "C144",
   "status": "partial",
   "theorems": [
    "Nebula.Refs.C144_same_partial",
    "Nebula.Refs.C144_readonly",
    "Nebula.Refs.C144_result_partial",
    "Nebula.Refs.C144_operand_violated",
    "Nebula.Refs.C144_argument_violated",
    "Nebula.Refs.C144_collection_violated",
    "Nebula.Refs.C144_accumulator_violated"
   ],
   "note": "C144_same_partial and C144_result_partial (no variable is assigned between the evaluation of an operand that refers to it and its last use: Tidy); C144_readonly (all expressions that assign nothing). Violated: C144_operand_violated, C144_argument_violated, C144_collection_violated, C144_accumulator_violated."
  },
  {
   "property": "C145",
   "status": "partial",
   "theorems": [
    "Nebula.Objects.C145_copy",
    "Nebula.Objects.C145_returns",
    "Nebula.Objects.C145_independent",
    "Nebula.Objects.C145_original",
    "Nebula.Objects.C145_frame",
    "Nebula.Objects.C145_setter",
    "Nebula.Objects.C145_everywhere",
    "Nebula.Objects.C145_shared_violated",
    "Nebula.Objects.C145_size",
    "Nebula.Objects.C145_size_violated",
    "Nebula.Objects.C145_cycle_violated",
    "Nebula.Objects.C145_function_violated",
    "Nebula.Objects.C145_pool"
   ],
   "note": "C145_copy, C145_returns, C145_independent, C145_original, C145_frame, C145_size, C145_pool. Violated: C145_shared_violated, C145_size_violated, C145_cycle_violated, C145_function_violated. C145_setter and C145_everywhere: what a setter does to the object and to every expression it is part of."
  },
  {
   "property": "C146",
   "status": "partial",
   "theorems": [
    "Nebula.Meta.C146_moves",
    "Nebula.Meta.C146_loop",
    "Nebula.Meta.C146_equal",
    "Nebula.Meta.C146_plus_violated",
    "Nebula.Meta.C146_name_partial",
    "Nebula.Meta.C146_name_violated",
    "Nebula.Meta.C146_ttl",
    "Nebula.Meta.C146_ttl_violated"
   ],
   "note": "C146_moves, C146_loop, C146_equal, C146_name_partial (names without NUL), C146_ttl. Violated: C146_plus_violated, C146_name_violated, C146_ttl_violated."
  },
  {
   "property": "C147",
   "status": "partial",
   "theorems": [
    "Nebula.Logging.C147_log",
    "Nebula.Logging.C147_plog",
    "Nebula.Logging.C147_if_partial",
    "Nebula.Logging.C147_fatal_violated",
    "Nebula.Logging.C147_debug",
    "Nebula.Logging.C147_every",
    "Nebula.Logging.C147_if_every",
    "Nebula.Logging.C147_first",
    "Nebula.Logging.C147_overflow_violated",
    "Nebula.Logging.C147_number_violated",
    "Nebula.Logging.C147_negative_violated",
    "Nebula.Logging.C147_if_every_violated",
    "Nebula.Logging.C147_threads_violated"
   ],
   "note": "C147_log, C147_plog, C147_debug: what is evaluated and sent at every level. C147_if_partial: LOG_IF is if (c) LOG, except for FATAL above level FATAL (C147_fatal_violated). C147_every, C147_if_every: which of up to 2147483647 executions send, by divisibility of their number, whatever the levels and conditions were; C147_first: for any number of executions. Violations: C147_overflow_violated (every history of 2^31 executions), C147_number_violated, C147_negative_violated (every history), C147_if_every_violated (histories of every length), C147_threads_violated (every n of at least 2)."
  },
  {
   "property": "C148",
   "status": "partial",
   "theorems": [
    "Nebula.Wire.Named.C148_arrives",
    "Nebula.Wire.Named.C148_values_partial",
    "Nebula.Wire.Named.C148_set_violated",
    "Nebula.Wire.Named.C148_structures",
    "Nebula.Wire.Named.C148_answers",
    "Nebula.Wire.Named.C148_answer_partial",
    "Nebula.Wire.Named.C148_unknown",
    "Nebula.Wire.Named.C148_order",
    "Nebula.Wire.Named.C148_union",
    "Nebula.Wire.Named.C148_declared",
    "Nebula.Wire.Named.C148_names_partial",
    "Nebula.Wire.Named.C148_names_violated"
   ],
   "note": "C148_arrives: what arrives of every value through a protocol with names, by induction over the value; C148_values_partial: without sets, exactly what the compact protocol delivers; C148_set_violated: every set arrives empty (SetOps.inl translates names to T_STRUCT, the reader accepts T_SET). C148_structures: key-value pairs and host addresses; C148_answers, C148_answer_partial: the answers of the graph service and plans; C148_unknown: names that a structure does not have; C148_order: any permutation of the fields; C148_union: none, one, two or an unknown field of a value. C148_declared: what is written is the datum of C131 with the declared names; C148_names_partial: every reader but that of sets translates names as declared (C148_names_violated)."
  },
  {
   "property": "C149",
   "status": "partial",
   "theorems": [
    "Nebula.Regex.C149_either",
    "Nebula.Regex.C149_group",
    "Nebula.Regex.C149_sequence",
    "Nebula.Regex.C149_repeat",
    "Nebula.Regex.C149_option",
    "Nebula.Regex.C149_history",
    "Nebula.Regex.C149_language",
    "Nebula.Regex.C149_evaluation",
    "Nebula.Regex.C149_search",
    "Nebula.Regex.C149_first",
    "Nebula.Regex.C149_wildcard",
    "Nebula.Regex.C149_literal",
    "Nebula.Regex.C149_contains",
    "Nebula.Regex.C149_contains_same",
    "Nebula.Regex.C149_lines_violated"
   ],
   "note": "C149_evaluation, C149_language: the whole text belongs to the language, given by an inductive definition without order or groups. C149_history: the patterns kept in a context, for every history. C149_search, C149_first: the earliest piece. C149_wildcard, C149_literal, C149_contains, C149_contains_same: patterns of plain characters, '.' and '.*'. C149_either, C149_group, C149_sequence, C149_repeat, C149_option: what patterns put together from patterns match, in terms of what the parts match. C149_lines_violated: '.*' does not match texts of several lines, so '.*word.*' differs from CONTAINS. That the hand-written matchers do what the patterns mean: C114_pattern (ports), C108_pattern (pids), C123_pattern (segments), C63_dirname_pattern, C63_basename_pattern, C98_pattern (comments), C61_expression (routes). Lazy and counted repetition, look-ahead, back references and named classes are not modelled."
  },
  {
   "property": "C150",
   "status": "partial",
   "theorems": [
    "Nebula.Names.C150_declared",
    "Nebula.Names.C150_codes",
    "Nebula.Names.C150_success",
    "Nebula.Names.C150_text",
    "Nebula.Names.C150_text_inj",
    "Nebula.Names.C150_kinds",
    "Nebula.Names.C150_kinds_all",
    "Nebula.Names.C150_type_text",
    "Nebula.Names.C150_value_types",
    "Nebula.Names.C150_type_known_partial",
    "Nebula.Names.C150_type_known_violated"
   ],
   "note": "Tables transcribed whole; statements over all numbers and values. OUT_OF_RANGE is missing in the table of nulls: exhibited as a violation."
  },
  {
   "property": "C151",
   "status": "partial",
   "theorems": [
    "Nebula.FullText.C151_put",
    "Nebula.FullText.C151_bulk",
    "Nebula.FullText.C151_search",
    "Nebula.FullText.C151_index",
    "Nebula.FullText.C151_failure",
    "Nebula.FullText.C151_found",
    "Nebula.FullText.C151_prefix",
    "Nebula.FullText.C151_long_violated"
   ],
   "note": "Commands, shell words, pipe, JSON both ways and the reading of answers are composed; the engine is a hypothesis (FullText/Engine), and a concrete engine meeting it is built in FullText/EngineSample. Partial because values of more than 256 bytes are not found by themselves (C151_long_violated). All four kinds of search are followed into the engine; what matches a wildcard, a regular expression or nearly is a parameter of the engine, what matches a prefix is not (C151_prefix)."
  },
  {
   "property": "C152",
   "status": "partial",
   "theorems": [
    "Nebula.Web.Life.C152_freed_partial",
    "Nebula.Web.Life.C152_leak_violated",
    "Nebula.Web.Life.C152_kept",
    "Nebula.Web.Life.C152_safe",
    "Nebula.Web.Life.C152_answer",
    "Nebula.Web.Life.C152_silent"
   ],
   "note": "A heap of handlers, a shared list of flags and any interleaving of calls; what the HTTP library promises (Proper, Whole) is a specification. C152_safe: if the calls are as promised, a history can only end at a request of unknown method or at an answer that cannot be given (C100-C102). C152_kept, C152_freed_partial: when handlers are deleted; C152_leak_violated: a handler of the status whose request ends with an error is never deleted (StatusHandler.cpp:64-67 has no `delete this`). C152_answer, C152_silent: answers."
  },
  {
   "property": "C153",
   "status": "partial",
   "theorems": [
    "Nebula.Web.Race.C153_answer",
    "Nebula.Web.Race.C153_values",
    "Nebula.Web.Race.C153_meanwhile",
    "Nebula.Web.Race.C153_reading",
    "Nebula.Web.Race.C153_all",
    "Nebula.Web.Race.C153_alone",
    "Nebula.Web.Race.C153_runs",
    "Nebula.Web.Race.C153_whole_violated",
    "Nebula.Web.Race.C153_reader_violated"
   ],
   "note": "One step per call to gflags, each under gflags' lock (assumed); C153_alone ties an uninterrupted request to C100 and C101. C153_answer, C153_values, C153_meanwhile, C153_reading, C153_all, C153_runs by an invariant over schedules. Partial because requests are not atomic: C153_whole_violated (a mixture of two requests), C153_reader_violated (half of one seen)."
  },
  {
   "property": "C154",
   "status": "partial",
   "theorems": [
    "Nebula.Session.C154_members",
    "Nebula.Session.C154_derived_partial",
    "Nebula.Session.C154_derived_violated",
    "Nebula.Session.C154_destroy",
    "Nebula.Session.C154_pending_violated",
    "Nebula.Session.C154_tasks",
    "Nebula.Session.C154_ends"
   ],
   "note": "The worker is that of C135 (Worker/Life); Session/Model adds where the owner is. C154_members, C154_tasks (with C135_before_stop_partial; nobody can use the worker while it is started, quiet_starts), C154_ends, C154_destroy (exactly when freed memory is used), C154_derived_partial (derived classes that wait). Violated: C154_derived_violated, C154_pending_violated. Sessions themselves are kept by classes outside this repository."
  },
  {
   "property": "C155",
   "status": "partial",
   "theorems": [
    "Nebula.Outlive.C155_waited_partial",
    "Nebula.Outlive.C155_waited",
    "Nebula.Outlive.C155_once",
    "Nebula.Outlive.C155_goes_on",
    "Nebula.Outlive.C155_single_violated",
    "Nebula.Outlive.C155_unwaited_violated"
   ],
   "note": "Outlive/Model cuts the continuations of C49, C72 and C54 into steps that use a client, steps that answer the caller and the rest; the spec (Outlive/Spec) is about histories only. C155_waited: enough for requests to several hosts and to the meta server. C155_waited_partial: also with requests to one host, if none of them failed on its way. C155_once, C155_goes_on. Violated: C155_single_violated (for every such request with a part, either client), C155_unwaited_violated (all three kinds)."
  },
  {
   "property": "C156",
   "status": "proved",
   "theorems": [
    "Nebula.Thrift.Life.C156_closed",
    "Nebula.Thrift.Life.C156_distinct",
    "Nebula.Thrift.Life.C156_given",
    "Nebula.Thrift.Life.C156_all",
    "Nebula.Thrift.Life.C156_name"
   ],
   "note": "Thrift/Life: the calls of C110 on any number of threads, with the shared pointers in the maps and those of callers; the deleter runs when the last one goes. C156_closed, C156_distinct, C156_given, C156_all, C156_name. That the deleter runs on the thread of the event base, and waits, is not in the model."
  },
  {
   "property": "C157",
   "status": "partial",
   "theorems": [
    "Nebula.Regex.C157_even",
    "Nebula.Regex.C157_plain_partial",
    "Nebula.Regex.C157_same",
    "Nebula.Regex.C157_matches",
    "Nebula.Regex.C157_dies",
    "Nebula.Regex.C157_answer",
    "Nebula.Regex.C157_notFound",
    "Nebula.Regex.C157_safe_partial",
    "Nebula.Regex.C157_add",
    "Nebula.Regex.C157_method_violated",
    "Nebula.Regex.C157_groups_violated",
    "Nebula.Regex.C157_slash_violated"
   ],
   "note": "C157_add (which texts are accepted), C157_same (routes of C61 are the same routes), C157_matches, C157_dies (exactly which requests end the process), C157_answer, C157_notFound, C157_safe_partial, C157_even and C157_plain_partial (routes without $ ( [ and backslash have one group per parameter and are safe). C157_groups_violated: a route with groups of its own aborts on every request it matches. C157_slash_violated: \"/tag/:id$\" answers \"/tag/7\" and aborts on \"/tag/7/\", because matching strips the slash and reading the parameters does not. C157_method_violated: unknown methods throw."
  },
  {
   "property": "C158",
   "status": "partial",
   "theorems": [
    "Nebula.Expr.C158_forward_partial",
    "Nebula.Expr.C158_same_partial",
    "Nebula.Expr.C158_hops",
    "Nebula.Expr.C158_stable_partial",
    "Nebula.Expr.C158_uuid_violated",
    "Nebula.Expr.C158_range_violated",
    "Nebula.Expr.C158_column_violated"
   ],
   "note": "C158_forward_partial: any bytes below 4 GiB that decode to an expression without the three exceptions: it can be encoded and the next host decodes it (constants as their wire image; that they fit the wire is proved, not assumed, see C159). C158_same_partial: if edge types in constants are directions, the very same expression. C158_hops, C158_stable_partial: after the first hop nothing changes. C158_uuid_violated, C158_range_violated, C158_column_violated: received expressions whose forwarding ends this host, makes the next read past the end, or ends the next."
  },
  {
   "property": "C159",
   "status": "partial",
   "theorems": [
    "Nebula.Wire.C159_fits",
    "Nebula.Wire.C159_sets",
    "Nebula.Wire.C159_forward",
    "Nebula.Wire.C159_same_partial",
    "Nebula.Wire.C159_stable",
    "Nebula.Wire.C159_hops",
    "Nebula.Wire.C159_type_violated"
   ],
   "note": "C159_fits and C159_sets: every value that deserialises, from whatever bytes, fits (numbers in range, sizes expressible, map keys distinct, sets without equal values), at every depth. C159_forward: it can be sent on and arrives as its wire image. C159_same_partial: as itself if the types of edges and steps are -1, 0 or 1. C159_stable and C159_hops: after the first hop nothing changes. C159_type_violated: an edge of type 5 that arrives from another program is sent on as type 1."
  },
  {
   "property": "C160",
   "status": "partial",
   "theorems": [
    "Nebula.Wire.C160_auth",
    "Nebula.Wire.C160_plan",
    "Nebula.Wire.C160_exec",
    "Nebula.Wire.C160_same_partial",
    "Nebula.Wire.C160_stable",
    "Nebula.Wire.C160_type_violated"
   ],
   "note": "C160_auth, C160_plan: logins and plans received from whatever bytes arrive unchanged when sent on. C160_exec: an answer to a query arrives with the values of its table as in C67 and all else unchanged. C160_same_partial: the very answer if edge and step types in the table are -1, 0 or 1 (otherwise they are replaced by directions, C160_type_violated). C160_stable: from the second host on nothing changes."
  },
  {
   "property": "C161",
   "status": "proved",
   "theorems": [
    "Nebula.Wire.C161_given",
    "Nebula.Wire.C161_relay",
    "Nebula.Wire.C161_back",
    "Nebula.Wire.C161_answer",
    "Nebula.Wire.Named.C161_answer_fits",
    "Nebula.Wire.Named.C161_answer_taken",
    "Nebula.Wire.Named.C161_fits",
    "Nebula.Wire.Named.C161_taken"
   ],
   "note": "C161_relay and C161_answer (server to client), C161_back (client to server), C161_given (from whatever bytes), C161_fits, C161_taken, C161_answer_fits and C161_answer_taken (from whatever document). That sets arrive empty by names (C148_set_violated) holds with and without the host in between."
  },
  {
   "property": "C162",
   "status": "partial",
   "theorems": [
    "Nebula.Wire.C162_equal_partial",
    "Nebula.Wire.C162_compare_partial",
    "Nebula.Wire.C162_set_partial",
    "Nebula.Wire.C162_kinds_violated",
    "Nebula.Wire.C162_set_violated",
    "Nebula.Wire.C162_order_partial",
    "Nebula.Wire.C162_order_violated",
    "Nebula.Wire.C162_named_partial",
    "Nebula.Wire.C162_answer_partial"
   ],
   "note": "C162_equal_partial (equal stays equal, without elements in sets), C162_compare_partial (both directions, sets included) and C162_set_partial (a set keeps its elements), the latter two for edges of one kind and steps whose type goes with their name; C162_answer_partial (answers to queries, likewise); C162_order_partial (order, for edges and steps of one kind); C162_named_partial (the same if one or both are received by field names, without elements in sets). Violated otherwise: two edges of different kinds between the same vertices are different where they come from and equal where they arrive (C162_kinds_violated), because only the direction of the type is sent and the name is not compared; a set of the two arrives with one element (C162_set_violated); they were ordered and no longer are (C162_order_violated). By names sets arrive empty (C148_set_violated)."
  },
  {
   "property": "C163",
   "status": "partial",
   "theorems": [
    "Nebula.Expr.C163_equal_partial",
    "Nebula.Expr.C163_value_partial",
    "Nebula.Expr.C163_host_partial",
    "Nebula.Expr.C163_types_violated",
    "Nebula.Expr.C163_leftover_violated"
   ],
   "note": "C163_value_partial: same values, failures and final states as functions of the state, if the constants are delivered as they are (edge and step types are directions). C163_host_partial: also if the two hosts have evaluated different things before, without attributes of unknown name and XOR of nothing. C163_equal_partial: equal expressions are equal where they arrive, without elements in sets. Violated by constants that hold edges of different kinds (C163_types_violated: their comparison is false here and true there) and by an attribute of unknown name (C163_leftover_violated: the value of an earlier evaluation here, nothing there)."
  },
  {
   "property": "C164",
   "status": "partial",
   "theorems": [
    "Nebula.Agg.C164_numbers",
    "Nebula.Agg.C164_distinct_partial",
    "Nebula.Agg.C164_values_partial",
    "Nebula.Agg.C164_distinct_violated"
   ],
   "note": "C164_numbers (number functions without DISTINCT, any values); C164_distinct_partial (with DISTINCT, for edges of one kind and steps whose type goes with their name); C164_values_partial (MAX, MIN, COLLECT, COLLECT_SET, with DISTINCT and without, for edges and steps of one kind; a collection must still fit on the wire). Violated otherwise: COUNT(DISTINCT e) of two edges of different kinds between the same vertices is 2 where they come from and 1 where they arrive (C164_distinct_violated)."
  },
  {
   "property": "C165",
   "status": "partial",
   "theorems": [
    "Nebula.Func.C165_parts",
    "Nebula.Func.C165_size",
    "Nebula.Func.C165_cell",
    "Nebula.Func.C165_trail_partial",
    "Nebula.Func.C165_trail_violated"
   ],
   "note": "C165_parts (twenty functions, all values), C165_size (all values but sets), C165_cell (cells of tables); C165_trail_partial (repeated edges and vertices, for steps of one kind). Violated otherwise: a path over two edges of different kinds between the same vertices repeats no edge where it comes from and repeats one where it arrives (C165_trail_violated), because only the direction of the type is sent and the name is not compared. typeid is not among the functions: by C67 it gives 1 or -1 where the edge arrives."
  }
 ]
}