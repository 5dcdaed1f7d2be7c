{
 "claims": [
  {
   "property": "C01",
   "status": "proved",
   "theorems": [
    "Wite.Props.c01_split_then_join"
   ],
   "note": ""
  },
  {
   "property": "C02",
   "status": "proved",
   "theorems": [
    "Wite.Props.c02_keep_empty_decomposition",
    "Wite.Props.c02_keep_empty_count",
    "Wite.Props.c02_keep_empty_unique"
   ],
   "note": ""
  },
  {
   "property": "C03",
   "status": "proved",
   "theorems": [
    "Wite.Props.c03_drop_empty_filters",
    "Wite.Props.c03_drop_empty_no_empty"
   ],
   "note": ""
  },
  {
   "property": "C04",
   "status": "proved",
   "theorems": [
    "Wite.Props.c04_join_result",
    "Wite.Props.c04_join_length"
   ],
   "note": ""
  },
  {
   "property": "C05",
   "status": "proved",
   "theorems": [
    "Wite.Props.c05_join_then_split"
   ],
   "note": ""
  },
  {
   "property": "C06",
   "status": "proved",
   "theorems": [
    "Wite.Props.c06_trim_left_exact",
    "Wite.Props.c06_trim_right_exact",
    "Wite.Props.c06_strip_exact",
    "Wite.Props.c06_trims_return",
    "Wite.Props.c06_strip_all_whitespace"
   ],
   "note": ""
  },
  {
   "property": "C07",
   "status": "proved",
   "theorems": [
    "Wite.Props.c07_trim_left_idempotent",
    "Wite.Props.c07_trim_right_idempotent",
    "Wite.Props.c07_strip_idempotent",
    "Wite.Props.c07_strip_is_left_of_right",
    "Wite.Props.c07_strip_is_right_of_left"
   ],
   "note": ""
  },
  {
   "property": "C08",
   "status": "partial",
   "theorems": [
    "Wite.Props.c08_refuted_trim_of_non_ascii",
    "Wite.Props.c08_trim_of_ascii_partial",
    "Wite.Props.c08_c_locale_partial",
    "Wite.Props.c08_trim_left_undefined_iff"
   ],
   "note": "False as stated: std::isspace is called on a plain char, so any reachable byte above 0x7F is undefined behaviour (c08_refuted_...). Proved for ASCII strings, plus an exact characterisation of when trim_left is undefined."
  },
  {
   "property": "C09",
   "status": "proved",
   "theorems": [
    "Wite.Props.c09_hexlify_text",
    "Wite.Props.c09_unhexlify_hexlify"
   ],
   "note": ""
  },
  {
   "property": "C10",
   "status": "proved",
   "theorems": [
    "Wite.Props.c10_hexlify_unhexlify"
   ],
   "note": ""
  },
  {
   "property": "C11",
   "status": "partial",
   "theorems": [
    "Wite.Props.c11_unhexlify_exact_partial",
    "Wite.Props.c11_unhexlify_even_partial",
    "Wite.Props.c11_refuted_odd_length_accepted"
   ],
   "note": "False as stated: unhexlify of an odd-length string returns normally and never examines the last character (c11_refuted_...). Proved: exact behaviour on every string, and the full claim for even lengths."
  },
  {
   "property": "C12",
   "status": "proved",
   "theorems": [
    "Wite.Props.c12_from_hex_chars_accepts",
    "Wite.Props.c12_from_hex_chars_errors",
    "Wite.Props.c12_from_hex_chars_value"
   ],
   "note": ""
  },
  {
   "property": "C13",
   "status": "proved",
   "theorems": [
    "Wite.Props.c13_try_from_hex_chars_agrees"
   ],
   "note": ""
  },
  {
   "property": "C14",
   "status": "proved",
   "theorems": [
    "Wite.Props.c14_unhexlify_n_accepts",
    "Wite.Props.c14_unhexlify_n_value",
    "Wite.Props.c14_try_unhexlify_n_agrees",
    "Wite.Props.c14_unhexlify_n_is_unhexlify"
   ],
   "note": ""
  },
  {
   "property": "C15",
   "status": "proved",
   "theorems": [
    "Wite.Props.c15_integer_round_trip",
    "Wite.Props.c15_integer_round_trip_big_endian"
   ],
   "note": ""
  },
  {
   "property": "C16",
   "status": "proved",
   "theorems": [
    "Wite.Props.c16_round_trip",
    "Wite.Props.c16_round_trip_mixed"
   ],
   "note": ""
  },
  {
   "property": "C17",
   "status": "proved",
   "theorems": [
    "Wite.Props.c17_text",
    "Wite.Props.c17_length",
    "Wite.Props.c17_unknown"
   ],
   "note": ""
  },
  {
   "property": "C18",
   "status": "proved",
   "theorems": [
    "Wite.Props.c18_fields",
    "Wite.Props.c18_fixed_is_value"
   ],
   "note": ""
  },
  {
   "property": "C19",
   "status": "proved",
   "theorems": [
    "Wite.Props.c19_parse",
    "Wite.Props.c19_shape_meaning",
    "Wite.Props.c19_unknown"
   ],
   "note": ""
  },
  {
   "property": "C20",
   "status": "proved",
   "theorems": [
    "Wite.Props.c20_case"
   ],
   "note": ""
  },
  {
   "property": "C21",
   "status": "proved",
   "theorems": [
    "Wite.Props.c21_try_make_agrees"
   ],
   "note": ""
  },
  {
   "property": "C22",
   "status": "partial",
   "theorems": [
    "Wite.Props.c22_refuted_overrun",
    "Wite.Props.c22_refuted_read_past_end",
    "Wite.Props.c22_safe_partial",
    "Wite.Props.c22_wrong_length_partial",
    "Wite.Props.c22_undefined_partial",
    "Wite.Props.c22_undefined_iff_partial"
   ],
   "note": "False as stated: a 68-character string with more than 32 digits overruns the 32-digit buffer, and one ending in '0' reads past the end of the string (c22_refuted_...). Proved: exactly which strings are undefined (c22_undefined_iff_partial), for strings of any characters; strings of another length are rejected."
  },
  {
   "property": "C23",
   "status": "proved",
   "theorems": [
    "Wite.Props.c23_to_c_str",
    "Wite.Props.c23_unknown",
    "Wite.Props.c23_no_overrun"
   ],
   "note": ""
  },
  {
   "property": "C24",
   "status": "proved",
   "theorems": [
    "Wite.Props.c24_version_variant",
    "Wite.Props.c24_all_reachable"
   ],
   "note": ""
  },
  {
   "property": "C25",
   "status": "partial",
   "theorems": [
    "Wite.Props.c25_refuted",
    "Wite.Props.c25_positions_partial"
   ],
   "note": "False as stated: byte 6 is the low byte of the little-endian third field, so the '4' is printed as the 17th character and the 15th is arbitrary (c25_refuted). Proved: the actual position, and the variant character."
  },
  {
   "property": "C26",
   "status": "proved",
   "theorems": [
    "Wite.Props.c26_lexicographic",
    "Wite.Props.c26_equality",
    "Wite.Props.c26_total_order"
   ],
   "note": ""
  },
  {
   "property": "C27",
   "status": "proved",
   "theorems": [
    "Wite.Props.c27_hash_value",
    "Wite.Props.c27_both_halves",
    "Wite.Props.c27_identity_hash"
   ],
   "note": ""
  },
  {
   "property": "C28",
   "status": "proved",
   "theorems": [
    "Wite.Props.c28_injective",
    "Wite.Props.c28_formats"
   ],
   "note": ""
  },
  {
   "property": "C29",
   "status": "proved",
   "theorems": [
    "Wite.Props.c29_write_then_read",
    "Wite.Props.c29_write_at_then_read_at"
   ],
   "note": ""
  },
  {
   "property": "C30",
   "status": "proved",
   "theorems": [
    "Wite.Props.c30_endian_bytes",
    "Wite.Props.c30_endian_read",
    "Wite.Props.c30_runtime_endian"
   ],
   "note": ""
  },
  {
   "property": "C31",
   "status": "proved",
   "theorems": [
    "Wite.Props.c31_write_frame"
   ],
   "note": ""
  },
  {
   "property": "C32",
   "status": "proved",
   "theorems": [
    "Wite.Props.c32_read"
   ],
   "note": ""
  },
  {
   "property": "C33",
   "status": "proved",
   "theorems": [
    "Wite.Props.c33_write_at",
    "Wite.Props.c33_read_at"
   ],
   "note": ""
  },
  {
   "property": "C34",
   "status": "proved",
   "theorems": [
    "Wite.Props.c34_try_read_agrees",
    "Wite.Props.c34_try_read_at_agrees"
   ],
   "note": ""
  },
  {
   "property": "C35",
   "status": "proved",
   "theorems": [
    "Wite.Props.c35_multi_try_read",
    "Wite.Props.c35_prefix_as_read"
   ],
   "note": ""
  },
  {
   "property": "C36",
   "status": "partial",
   "theorems": [
    "Wite.Props.c36_multi_try_read_at_partial",
    "Wite.Props.c36_every_position_partial",
    "Wite.Props.c36_refuted_position_wraps"
   ],
   "note": "False as stated when position + increment wraps modulo 2^64 (c36_refuted_...). Proved whenever the sum does not wrap, and, for every position, exactly what each value is (c36_every_position_partial)."
  },
  {
   "property": "C37",
   "status": "proved",
   "theorems": [
    "Wite.Props.c37_try_write_agrees",
    "Wite.Props.c37_failed_try_write"
   ],
   "note": ""
  },
  {
   "property": "C38",
   "status": "proved",
   "theorems": [
    "Wite.Props.c38_try_write_at_agrees",
    "Wite.Props.c38_multi_try_write_at_agrees"
   ],
   "note": ""
  },
  {
   "property": "C39",
   "status": "proved",
   "theorems": [
    "Wite.Props.c39_to_bytes",
    "Wite.Props.c39_from_to_bytes",
    "Wite.Props.c39_to_from_bytes"
   ],
   "note": ""
  },
  {
   "property": "C40",
   "status": "proved",
   "theorems": [
    "Wite.Props.c40_range_round_trip",
    "Wite.Props.c40_range_insufficient",
    "Wite.Props.c40_range_at"
   ],
   "note": ""
  },
  {
   "property": "C41",
   "status": "proved",
   "theorems": [
    "Wite.Props.c41_read_view_cursor",
    "Wite.Props.c41_write_view_cursor"
   ],
   "note": ""
  },
  {
   "property": "C42",
   "status": "proved",
   "theorems": [
    "Wite.Props.c42_read_view",
    "Wite.Props.c42_read_view_range",
    "Wite.Props.c42_read_view_endian",
    "Wite.Props.c42_seek",
    "Wite.Props.c42_write_view",
    "Wite.Props.c42_write_view_endian"
   ],
   "note": ""
  },
  {
   "property": "C43",
   "status": "proved",
   "theorems": [
    "Wite.Props.c43_writes_then_reads",
    "Wite.Props.c43_writes_succeed_iff"
   ],
   "note": ""
  },
  {
   "property": "C44",
   "status": "proved",
   "theorems": [
    "Wite.Props.c44_view_try_read"
   ],
   "note": ""
  },
  {
   "property": "C45",
   "status": "proved",
   "theorems": [
    "Wite.Props.c45_stream_round_trip",
    "Wite.Props.c45_stream_fifo"
   ],
   "note": ""
  },
  {
   "property": "C46",
   "status": "proved",
   "theorems": [
    "Wite.Props.c46_write_then_read",
    "Wite.Props.c46_write_count",
    "Wite.Props.c46_unopenable"
   ],
   "note": ""
  },
  {
   "property": "C47",
   "status": "proved",
   "theorems": [
    "Wite.Props.c47_read_prefix",
    "Wite.Props.c47_missing_file"
   ],
   "note": ""
  },
  {
   "property": "C48",
   "status": "partial",
   "theorems": [
    "Wite.Props.c48_refuted_short_write",
    "Wite.Props.c48_try_write_success_partial"
   ],
   "note": "False as stated: the number of bytes fwrite accepted is ignored, so a short write is reported as success (c48_refuted_...). Proved: the file then holds exactly the accepted prefix."
  },
  {
   "property": "C49",
   "status": "partial",
   "theorems": [
    "Wite.Props.c49_refuted_count_beyond_buffer",
    "Wite.Props.c49_no_over_read_partial",
    "Wite.Props.c49_over_read_iff_partial"
   ],
   "note": "False as stated: a count beyond the buffer makes fwrite read past its end (c49_refuted_...). Proved for counts within the buffer, and that these are exactly the undefined calls."
  },
  {
   "property": "C50",
   "status": "proved",
   "theorems": [
    "Wite.Props.c50_history",
    "Wite.Props.c50_tame",
    "Wite.Props.c50_emplace_throw",
    "Wite.Props.c50_transform_throw"
   ],
   "note": ""
  },
  {
   "property": "C51",
   "status": "proved",
   "theorems": [
    "Wite.Props.c51_and_then_value",
    "Wite.Props.c51_and_then_error",
    "Wite.Props.c51_or_else_error",
    "Wite.Props.c51_or_else_value",
    "Wite.Props.c51_transform",
    "Wite.Props.c51_transform_error",
    "Wite.Props.c51_and_then_id",
    "Wite.Props.c51_or_else_id",
    "Wite.Props.c51_and_then_chain",
    "Wite.Props.c51_or_else_chain",
    "Wite.Props.c51_and_then_compose",
    "Wite.Props.c51_value_or"
   ],
   "note": ""
  },
  {
   "property": "C52",
   "status": "proved",
   "theorems": [
    "Wite.Props.c52_discipline",
    "Wite.Props.c52_discipline_terminated",
    "Wite.Props.c52_exactly_once",
    "Wite.Props.c52_identified",
    "Wite.Props.c52_function_runs",
    "Wite.Props.c52_release",
    "Wite.Props.c52_throwing_function"
   ],
   "note": ""
  },
  {
   "property": "C53",
   "status": "partial",
   "theorems": [
    "Wite.Props.c53_refuted_success",
    "Wite.Props.c53_refuted_fail",
    "Wite.Props.c53_refuted_everywhere",
    "Wite.Props.c53_refuted",
    "Wite.Props.c53_plain_partial",
    "Wite.Props.c53_every_program_partial",
    "Wite.Props.c53_rule_documented_partial"
   ],
   "note": "False as stated: the condition is whether any exception is in flight, so in code run by a destructor during unwinding scope_success does not run and scope_fail does although their scope is left normally (c53_refuted_...). Proved: the documented behaviour for programs whose guard functions declare only scope_exit guards, and the exact rule followed in every program."
  },
  {
   "property": "C54",
   "status": "partial",
   "theorems": [
    "Wite.Props.c54_refuted",
    "Wite.Props.c54_refuted_copy",
    "Wite.Props.c54_assigned_partial",
    "Wite.Props.c54_released_partial"
   ],
   "note": "False as stated: assignment leaves both guards engaged, so a function pointer runs twice and the target's old function never (c54_refuted...). Proved: exactly once if the source is released after the assignment."
  },
  {
   "property": "C55",
   "status": "proved",
   "theorems": [
    "Wite.Props.c55_add_exact",
    "Wite.Props.c55_sub_exact",
    "Wite.Props.c55_add_sub_release",
    "Wite.Props.c55_add_sub_debug",
    "Wite.Props.c55_inc_dec",
    "Wite.Props.c55_inc_dec_exact",
    "Wite.Props.c55_order"
   ],
   "note": ""
  },
  {
   "property": "C56",
   "status": "proved",
   "theorems": [
    "Wite.Props.c56_add",
    "Wite.Props.c56_sub",
    "Wite.Props.c56_inc_dec",
    "Wite.Props.c56_release",
    "Wite.Props.c56_most_negative"
   ],
   "note": ""
  },
  {
   "property": "C57",
   "status": "proved",
   "theorems": [
    "Wite.Props.c57_compare",
    "Wite.Props.c57_total",
    "Wite.Props.c57_value"
   ],
   "note": ""
  },
  {
   "property": "C58",
   "status": "proved",
   "theorems": [
    "Wite.Props.c58_list",
    "Wite.Props.c58_unchanged"
   ],
   "note": ""
  },
  {
   "property": "C59",
   "status": "partial",
   "theorems": [
    "Wite.Props.c59_refuted_capacity",
    "Wite.Props.c59_refuted_live",
    "Wite.Props.c59_other_constructors_partial"
   ],
   "note": "False for the size constructor, which sets the size without creating elements and without checking the capacity. Proved for programs using the other constructors."
  },
  {
   "property": "C60",
   "status": "proved",
   "theorems": [
    "Wite.Props.c60_at",
    "Wite.Props.c60_front_back",
    "Wite.Props.c60_returns"
   ],
   "note": ""
  },
  {
   "property": "C61",
   "status": "proved",
   "theorems": [
    "Wite.Props.c61_equal_shown",
    "Wite.Props.c61_equal"
   ],
   "note": ""
  },
  {
   "property": "C62",
   "status": "partial",
   "theorems": [
    "Wite.Props.c62_refuted_clear",
    "Wite.Props.c62_refuted_example",
    "Wite.Props.c62_resize_partial"
   ],
   "note": "False for clear(), which only resets the count. Proved for resize to a smaller size."
  },
  {
   "property": "C63",
   "status": "proved",
   "theorems": [
    "Wite.Props.c63_list",
    "Wite.Props.c63_unique"
   ],
   "note": ""
  },
  {
   "property": "C64",
   "status": "proved",
   "theorems": [
    "Wite.Props.c64_ownership",
    "Wite.Props.c64_clear",
    "Wite.Props.c64_no_leak"
   ],
   "note": ""
  },
  {
   "property": "C65",
   "status": "partial",
   "theorems": [
    "Wite.Props.c65_single_partial",
    "Wite.Props.c65_flags_partial",
    "Wite.Props.c65_variadic_partial",
    "Wite.Props.c65_refuted_range"
   ],
   "note": "False for insert of a range and the initialiser-list constructor, which drop duplicates silently. Proved for single insert, try_insert, emplace, variadic insert and the try_insert forms for several items."
  },
  {
   "property": "C66",
   "status": "partial",
   "theorems": [
    "Wite.Props.c66_refuted_change_id",
    "Wite.Props.c66_refuted_excise",
    "Wite.Props.c66_refuted_dangling",
    "Wite.Props.c66_keep_id_partial"
   ],
   "note": "False: an id changed through the reference leaves map and order inconsistent, up to undefined behaviour. Proved for modifications that keep the id."
  },
  {
   "property": "C67",
   "status": "proved",
   "theorems": [
    "Wite.Props.c67_failures"
   ],
   "note": ""
  },
  {
   "property": "C68",
   "status": "proved",
   "theorems": [
    "Wite.Props.c68_make",
    "Wite.Props.c68_at",
    "Wite.Props.c68_with",
    "Wite.Props.c68_inverse",
    "Wite.Props.c68_assign"
   ],
   "note": ""
  },
  {
   "property": "C69",
   "status": "proved",
   "theorems": [
    "Wite.Props.c69_order",
    "Wite.Props.c69_reserve_anywhere",
    "Wite.Props.c69_throws"
   ],
   "note": ""
  },
  {
   "property": "C70",
   "status": "partial",
   "theorems": [
    "Wite.Props.c70_release",
    "Wite.Props.c70_laws",
    "Wite.Props.c70_increments",
    "Wite.Props.c70_steps",
    "Wite.Props.c70_loop",
    "Wite.Props.c70_refuted_end",
    "Wite.Props.c70_debug_partial",
    "Wite.Props.c70_debug_reports",
    "Wite.Props.c70_equal",
    "Wite.Props.c70_subscript"
   ],
   "note": "False in debug builds for moves by an offset to end(). Proved for release builds without restriction, and for debug builds for moves to elements and for single steps."
  },
  {
   "property": "C71",
   "status": "proved",
   "theorems": [
    "Wite.Props.c71_get_set",
    "Wite.Props.c71_set_laws",
    "Wite.Props.c71_construct",
    "Wite.Props.c71_out_of_range",
    "Wite.Props.c71_lexicographic",
    "Wite.Props.c71_total_order",
    "Wite.Props.c71_equal",
    "Wite.Props.c71_int"
   ],
   "note": ""
  },
  {
   "property": "C72",
   "status": "partial",
   "theorems": [
    "Wite.Props.c72_partial",
    "Wite.Props.c72_refuted",
    "Wite.Props.c72_default"
   ],
   "note": "False for lists longer than the dimension, which are written past the end of the array (c72_refuted). Proved for lists up to the dimension; coordinates left over are indeterminate."
  },
  {
   "property": "C73",
   "status": "partial",
   "theorems": [
    "Wite.Props.c73_int_next",
    "Wite.Props.c73_int_prev",
    "Wite.Props.c73_int_round",
    "Wite.Props.c73_int_extreme",
    "Wite.Props.c73_flt_next",
    "Wite.Props.c73_flt_prev_partial",
    "Wite.Props.c73_refuted_prev",
    "Wite.Props.c73_flt_round_partial"
   ],
   "note": "False for floating-point prev_value at and below numeric_limits<T>::min(), the smallest positive normal number: it moves up instead of down (c73_refuted_prev). Proved for integers, for next_value everywhere and for prev_value above that number."
  },
  {
   "property": "C74",
   "status": "proved",
   "theorems": [
    "Wite.Props.c74_min",
    "Wite.Props.c74_max",
    "Wite.Props.c74_minmax",
    "Wite.Props.c74_order",
    "Wite.Props.c74_ties"
   ],
   "note": ""
  },
  {
   "property": "C75",
   "status": "proved",
   "theorems": [
    "Wite.Props.c75_fraction_interpolate",
    "Wite.Props.c75_interpolate_fraction",
    "Wite.Props.c75_ends_mono"
   ],
   "note": ""
  },
  {
   "property": "C76",
   "status": "partial",
   "theorems": [
    "Wite.Props.c76_float",
    "Wite.Props.c76_refuted_int"
   ],
   "note": "False for integers, whose numeric_limits NaN is 0 (c76_refuted_int). Proved for floating-point types."
  },
  {
   "property": "C77",
   "status": "proved",
   "theorems": [
    "Wite.Props.c77_floor",
    "Wite.Props.c77_ends",
    "Wite.Props.c77_overflow"
   ],
   "note": ""
  },
  {
   "property": "C78",
   "status": "proved",
   "theorems": [
    "Wite.Props.c78_contains",
    "Wite.Props.c78_exactly_one",
    "Wite.Props.c78_empty_open"
   ],
   "note": ""
  },
  {
   "property": "C79",
   "status": "partial",
   "theorems": [
    "Wite.Props.c79_values",
    "Wite.Props.c79_none_partial",
    "Wite.Props.c79_refuted_open",
    "Wite.Props.c79_algebra"
   ],
   "note": "False for ranges with an open end: ranges that only touch overlap in an empty range instead of nullopt (c79_refuted_open). Proved: the values are right for every kind of bounds, and nullopt is exact for closed ranges."
  },
  {
   "property": "C80",
   "status": "partial",
   "theorems": [
    "Wite.Props.c80_clamp",
    "Wite.Props.c80_contained_partial",
    "Wite.Props.c80_refuted_open",
    "Wite.Props.c80_idempotent_monotone",
    "Wite.Props.c80_bounded",
    "Wite.Props.c80_inverted"
   ],
   "note": "False for open ends: clamp returns the bound itself, which the range does not contain (c80_refuted_open). Proved: nearest bound, idempotent, monotone for every kind of bounds; contained for closed ones."
  },
  {
   "property": "C81",
   "status": "partial",
   "theorems": [
    "Wite.Props.c81_closed_partial",
    "Wite.Props.c81_effect",
    "Wite.Props.c81_inner_partial",
    "Wite.Props.c81_signed_partial",
    "Wite.Props.c81_refuted_min",
    "Wite.Props.c81_refuted_max"
   ],
   "note": "False for unsigned types, and signed ones of fewer than 32 bits, with open bounds at the extremes of the type, where next_value/prev_value wrap (c81_refuted_...). Proved for closed ranges, for signed types of at least 32 bits, and for histories that avoid the extremes."
  },
  {
   "property": "C82",
   "status": "partial",
   "theorems": [
    "Wite.Props.c82_mid_partial",
    "Wite.Props.c82_unsigned_partial",
    "Wite.Props.c82_refuted"
   ],
   "note": "False for signed types when max - min overflows (c82_refuted). Proved whenever the size fits, which every unsigned range's does."
  },
  {
   "property": "C83",
   "status": "proved",
   "theorems": [
    "Wite.Props.c83_values",
    "Wite.Props.c83_range",
    "Wite.Props.c83_ranges"
   ],
   "note": ""
  },
  {
   "property": "C84",
   "status": "partial",
   "theorems": [
    "Wite.Props.c84_int",
    "Wite.Props.c84_flt_partial",
    "Wite.Props.c84_refuted"
   ],
   "note": "False for floating-point types: the default lower bound is the smallest positive normal number, so zero and every negative number are out of bounds (c84_refuted). Proved for integers and for floating-point numbers from that bound on."
  },
  {
   "property": "C85",
   "status": "partial",
   "theorems": [
    "Wite.Props.c85_partial",
    "Wite.Props.c85_refuted_general",
    "Wite.Props.c85_refuted"
   ],
   "note": "False as stated: iterating over a string with an empty fragment before the last one is undefined (c85_refuted, c85_refuted_general: for every such string, both directions). Proved for every string in which only the last fragment may be empty."
  },
  {
   "property": "C86",
   "status": "partial",
   "theorems": [
    "Wite.Props.c86_partial",
    "Wite.Props.c86_size",
    "Wite.Props.c86_beyond_end",
    "Wite.Props.c86_steps_outside",
    "Wite.Props.c86_before_begin",
    "Wite.Props.c86_refuted"
   ],
   "note": "False as stated when a fragment before the last is empty (c86_refuted). Proved in full when only the last fragment may be empty, together with what happens outside the string: assertion in debug; endless loop forward, undefined backward in release. The distance from begin() to end() is right for every string."
  },
  {
   "property": "C87",
   "status": "partial",
   "theorems": [
    "Wite.Props.c87_index_partial",
    "Wite.Props.c87_at_throws",
    "Wite.Props.c87_ends_partial",
    "Wite.Props.c87_ends_empty",
    "Wite.Props.c87_position_partial",
    "Wite.Props.c87_refuted_position",
    "Wite.Props.c87_refuted"
   ],
   "note": "False as stated: front(), back(), at() and [] are undefined at or next to empty fragments (c87_refuted for all strings that begin or end with an empty fragment; c87_refuted_position for all positions at which an empty fragment begins). Proved when only the last fragment may be empty (at, []), at every other position whatever the fragments (c87_position_partial), and when the first / last fragment is not empty (front / back); at() throws exactly outside the string for every fragmentation."
  },
  {
   "property": "C88",
   "status": "partial",
   "theorems": [
    "Wite.Props.c88_partial",
    "Wite.Props.c88_ptr_partial",
    "Wite.Props.c88_refuted"
   ],
   "note": "False as stated when a fragment before the last is empty: undefined (c88_refuted; C178 has the exact outcome of comparing such a string with a text). Proved when only last fragments may be empty."
  },
  {
   "property": "C89",
   "status": "partial",
   "theorems": [
    "Wite.Props.c89_starts_partial",
    "Wite.Props.c89_ends_partial",
    "Wite.Props.c89_refuted",
    "Wite.Props.c89_pointer_partial"
   ],
   "note": "False as stated: a string without characters does not start or end with the empty string, and empty fragments make the character overloads undefined (c89_refuted). Proved: the exact result when only last fragments may be empty."
  },
  {
   "property": "C90",
   "status": "partial",
   "theorems": [
    "Wite.Props.c90_char",
    "Wite.Props.c90_view_partial",
    "Wite.Props.c90_fragment_partial",
    "Wite.Props.c90_refuted_self",
    "Wite.Props.c90_refuted",
    "Wite.Props.c90_pointer_partial"
   ],
   "note": "False as stated: contains(fragment_string) misses an occurrence at the very end, so no string contains itself (c90_refuted, c90_refuted_self). Proved: the character overload in full; the string overload when only the last fragment may be empty; for the fragment_string overload the exact result."
  },
  {
   "property": "C91",
   "status": "partial",
   "theorems": [
    "Wite.Props.c91_default",
    "Wite.Props.c91_partial",
    "Wite.Props.c91_outside",
    "Wite.Props.c91_refuted",
    "Wite.Props.c91_refuted_all"
   ],
   "note": "False as stated: find(ch, pos) searches from the beginning of the fragment that contains pos and can return an offset below pos (c91_refuted; c91_refuted_all: it does so for every string whose fragment with pos has the character before pos). Proved: exact behaviour; right without a position and whenever the character does not occur in the fragment before pos."
  },
  {
   "property": "C92",
   "status": "partial",
   "theorems": [
    "Wite.Props.c92_partial",
    "Wite.Props.c92_refuted_end",
    "Wite.Props.c92_refuted_wrap",
    "Wite.Props.c92_refuted"
   ],
   "note": "False as stated: find(\"\", length()) and positions for which pos + size wraps are undefined (c92_refuted_end, c92_refuted_wrap). Proved in all other cases when only the last fragment may be empty."
  },
  {
   "property": "C93",
   "status": "partial",
   "theorems": [
    "Wite.Props.c93_substr_partial",
    "Wite.Props.c93_copy_partial",
    "Wite.Props.c93_refuted"
   ],
   "note": "False as stated: substr is undefined whenever pos + count wraps modulo 2^64 and count is not npos (c93_refuted). Proved in all other cases, and copy for every count, when only the last fragment may be empty. As in the code, pos == length() counts as out of range."
  },
  {
   "property": "C94",
   "status": "partial",
   "theorems": [
    "Wite.Props.c94_length_print",
    "Wite.Props.c94_partial",
    "Wite.Props.c94_refuted",
    "Wite.Props.c94_assoc"
   ],
   "note": "False as stated: to_str() of a string with a default-constructed part appends a null pointer, which is undefined (c94_refuted). Proved for all strings made from C strings and +; length and stream output are right for every string."
  },
  {
   "property": "C95",
   "status": "proved",
   "theorems": [
    "Wite.Props.c95_split_null",
    "Wite.Props.c95_split_c_string",
    "Wite.Props.c95_split_unterminated"
   ],
   "note": ""
  },
  {
   "property": "C96",
   "status": "proved",
   "theorems": [
    "Wite.Props.c96_to_integer_is_unsigned_value"
   ],
   "note": ""
  },
  {
   "property": "C97",
   "status": "partial",
   "theorems": [
    "Wite.Props.c97_read_result_partial",
    "Wite.Props.c97_refuted_short_read"
   ],
   "note": "False as stated: the number of bytes fread delivered is ignored, so after a short read the rest of the result is zero bytes (read) or stale caller bytes (try_read) reported as file content (c97_refuted_...). Proved for reads the system completes, and the exact result otherwise."
  },
  {
   "property": "C98",
   "status": "proved",
   "theorems": [
    "Wite.Props.c98_try_seek",
    "Wite.Props.c98_make_at",
    "Wite.Props.c98_try_read_range",
    "Wite.Props.c98_try_write"
   ],
   "note": ""
  },
  {
   "property": "C99",
   "status": "partial",
   "theorems": [
    "Wite.Props.c99_refuted_wide",
    "Wite.Props.c99_defined_partial",
    "Wite.Props.c99_wrong_length_partial",
    "Wite.Props.c99_undefined_iff_partial",
    "Wite.Props.c99_accepted_iff_partial"
   ],
   "note": "False as stated: wide characters above 255 are passed to std::isxdigit, which is undefined (c99_refuted_...). Proved, for strings of any characters: undefined exactly for strings of the right length with all separators in place and a character above 255; accepted exactly if the string has the shape of the format; everything else is rejected safely."
  },
  {
   "property": "C100",
   "status": "partial",
   "theorems": [
    "Wite.Props.c100_refuted_reads_behind",
    "Wite.Props.c100_contents_irrelevant_partial"
   ],
   "note": "False as stated: every successful parse searches for a NUL behind the full 32-character buffer (c100_refuted_...). Proved: given a NUL behind the buffer, the other contents make no difference."
  },
  {
   "property": "C101",
   "status": "partial",
   "theorems": [
    "Wite.Props.c101_refuted_garbage",
    "Wite.Props.c101_accepts_partial",
    "Wite.Props.c101_accepted_partial",
    "Wite.Props.c101_accepted_iff_partial",
    "Wite.Props.c101_rejected_iff_partial"
   ],
   "note": "False as stated: any 68 characters with 32 digits among them are accepted (c101_refuted_...). Proved: X text is accepted with the right value, and exactly which strings are accepted (with which UUID) and which are rejected."
  },
  {
   "property": "C102",
   "status": "partial",
   "theorems": [
    "Wite.Props.c102_refuted_equal_halves",
    "Wite.Props.c102_refuted_swapped_halves",
    "Wite.Props.c102_collisions_partial"
   ],
   "note": "False as stated: the hash is the exclusive or of the hashes of the halves, so equal halves give 0 and swapped halves collide (c102_refuted_...). Proved: with an injective underlying hash two UUIDs sharing a half in the same place do not collide."
  },
  {
   "property": "C103",
   "status": "partial",
   "theorems": [
    "Wite.Props.c103_refuted_vector",
    "Wite.Props.c103_refuted_every",
    "Wite.Props.c103_item_node_partial"
   ],
   "note": "False if the vector of pointers cannot grow: the item stays in the map. Proved for failing to allocate the item or the map node."
  },
  {
   "property": "C104",
   "status": "partial",
   "theorems": [
    "Wite.Props.c104_mono_partial",
    "Wite.Props.c104_zero_partial",
    "Wite.Props.c104_lower_partial",
    "Wite.Props.c104_upper_partial",
    "Wite.Props.c104_finite_partial",
    "Wite.Props.c104_near_partial",
    "Wite.Props.c104_refuted_infinite",
    "Wite.Props.c104_refuted_upper",
    "Wite.Props.c104_refuted_below",
    "Wite.Props.c104_infinite"
   ],
   "note": "False at the upper end: rounding of the difference makes interpolate(1, a, b) miss b, in either direction (c104_refuted_...), and even infinite for some finite a and the largest b (c104_refuted_infinite). Proved: never NaN, monotone, a at 0, not below a; the upper end too where the difference is representable; otherwise finite results miss it by at most 2^-m of the difference, where m is the number of stored bits of the significand, 52 for double (c104_near_partial), and results are finite if a <= 0 or there is that much room above b (c104_finite_partial). What happens with infinite ends is c104_infinite."
  },
  {
   "property": "C105",
   "status": "proved",
   "theorems": [
    "Wite.Props.c105_float",
    "Wite.Props.c105_float_ends",
    "Wite.Props.c105_float_mono",
    "Wite.Props.c105_int",
    "Wite.Props.c105_range_flt",
    "Wite.Props.c105_range_int"
   ],
   "note": ""
  },
  {
   "property": "C106",
   "status": "partial",
   "theorems": [
    "Wite.Props.c106_partial",
    "Wite.Props.c106_near_partial",
    "Wite.Props.c106_refuted",
    "Wite.Props.c106_refuted_wide",
    "Wite.Props.c106_nonfinite"
   ],
   "note": "False for differences above 2^53, where the rounded product can exceed the difference, up to undefined behaviour and unsigned wrap-around (c106_refuted); f = 1 is undefined for every signed 64-bit range at least 2^63 - 512 wide and every unsigned one at least 2^64 - 1024 wide (c106_refuted_wide). Proved for differences up to 2^53 (c106_partial). For differences up to 2^(54+s), where the type also holds b + 2^s and b - a + 2^s, everything holds except that the upper end is met only to within 2^s (c106_near_partial). Fractions that are not finite are always undefined (c106_nonfinite)."
  },
  {
   "property": "C107",
   "status": "partial",
   "theorems": [
    "Wite.Props.c107_partial",
    "Wite.Props.c107_refuted"
   ],
   "note": "False whenever max - min overflows to infinity: mid() is then minus infinity (c107_refuted). Proved whenever it does not."
  },
  {
   "property": "C108",
   "status": "partial",
   "theorems": [
    "Wite.Props.c108_partial",
    "Wite.Props.c108_refuted",
    "Wite.Props.c108_nonfinite",
    "Wite.Props.c108_int_truncated"
   ],
   "note": "False for integer types: the fraction is truncated to an integer, so every fraction in [0, 1) gives the lower bound (c108_refuted, c108_int_truncated). Proved for floating-point types and fractions of that type."
  },
  {
   "property": "C109",
   "status": "partial",
   "theorems": [
    "Wite.Props.c109_partial",
    "Wite.Props.c109_refuted_nan",
    "Wite.Props.c109_refuted_open",
    "Wite.Props.c109_refuted_open_everywhere"
   ],
   "note": "False for NaN, which is accepted as either bound, and for open bounds with infinity or with arguments below numeric_limits<T>::min(), where prev_value moves up (c109_refuted_...). Proved for the other arguments."
  },
  {
   "property": "C110",
   "status": "proved",
   "theorems": [
    "Wite.Props.c110_operators",
    "Wite.Props.c110_partial_order",
    "Wite.Props.c110_total",
    "Wite.Props.c110_nan"
   ],
   "note": ""
  },
  {
   "property": "C111",
   "status": "proved",
   "theorems": [
    "Wite.Props.c111_point",
    "Wite.Props.c111_point_injective",
    "Wite.Props.c111_point_uninit",
    "Wite.Props.c111_range"
   ],
   "note": ""
  },
  {
   "property": "C112",
   "status": "partial",
   "theorems": [
    "Wite.Props.c112_partial",
    "Wite.Props.c112_refuted",
    "Wite.Props.c112_refuted_all"
   ],
   "note": "False as stated for negative char values (c112_refuted; c112_refuted_all: the order is reversed whenever the texts first differ in one negative and one non-negative character). Proved for ASCII characters when only the last fragment may be empty."
  },
  {
   "property": "C113",
   "status": "partial",
   "theorems": [
    "Wite.Props.c113_partial",
    "Wite.Props.c113_refuted"
   ],
   "note": "False as stated: the literal operators ignore the length they are given, so characters after an embedded zero are lost (c113_refuted, for every such literal). Proved for literals without zeros."
  },
  {
   "property": "C114",
   "status": "partial",
   "theorems": [
    "Wite.Props.c114_partial",
    "Wite.Props.c114_exact_partial",
    "Wite.Props.c114_refuted"
   ],
   "note": "False as stated: only the first fragment is padded (c114_refuted). Proved: it holds exactly when the first fragment fills the width or the others have no characters (c114_exact_partial)."
  },
  {
   "property": "C115",
   "status": "partial",
   "theorems": [
    "Wite.Props.c115_c_string_partial",
    "Wite.Props.c115_unterminated",
    "Wite.Props.c115_refuted_null"
   ],
   "note": "False as stated for a null pointer: split(nullptr) returns no pieces, the trimming functions are undefined (c115_refuted_null). Proved for every pointer to terminated text, and that text without a terminator is undefined."
  },
  {
   "property": "C116",
   "status": "proved",
   "theorems": [
    "Wite.Props.c116_undefined_iff",
    "Wite.Props.c116_bytes",
    "Wite.Props.c116_agrees",
    "Wite.Props.c116_invalid_not_visible"
   ],
   "note": ""
  },
  {
   "property": "C117",
   "status": "proved",
   "theorems": [
    "Wite.Props.c117_wide_is_narrow",
    "Wite.Props.c117_accepts",
    "Wite.Props.c117_table"
   ],
   "note": ""
  },
  {
   "property": "C118",
   "status": "partial",
   "theorems": [
    "Wite.Props.c118_refuted_reachable",
    "Wite.Props.c118_refuted_threads",
    "Wite.Props.c118_partial"
   ],
   "note": "False as stated: the engine is seeded with 32 bits, so for every engine some version-4 UUID is never the first result of a thread (c118_refuted_reachable), and threads whose devices return the same 32 bits once get the same UUIDs for ever (c118_refuted_threads). Proved: call i uses draws 2i and 2i+1 of the thread's engine, and every result is a version-4 UUID."
  },
  {
   "property": "C119",
   "status": "partial",
   "theorems": [
    "Wite.Props.c119_refuted_aliasing",
    "Wite.Props.c119_text_partial",
    "Wite.Props.c119_refuted",
    "Wite.Props.c119_partial"
   ],
   "note": "False as stated: the class has alignment 1 but both functions access it through uint64_t*, undefined at every address that is not a multiple of 8 (c119_refuted); by the aliasing rule they are undefined at every address, because the bytes of a UUID are no uint64_t (c119_refuted_aliasing). Proved: without the aliasing rule the results at multiples of 8 do not depend on the address (c119_partial), and printing is always allowed (c119_text_partial)."
  },
  {
   "property": "C120",
   "status": "partial",
   "theorems": [
    "Wite.Props.c120_text",
    "Wite.Props.c120_partial",
    "Wite.Props.c120_refuted"
   ],
   "note": "False on big-endian hosts: the numbers are printed byte-reversed (c120_refuted; c120_text says exactly what is printed on every host). Proved on little-endian hosts."
  },
  {
   "property": "C121",
   "status": "proved",
   "theorems": [
    "Wite.Props.c121_insert",
    "Wite.Props.c121_injective",
    "Wite.Props.c121_read_back",
    "Wite.Props.c121_id"
   ],
   "note": ""
  },
  {
   "property": "C122",
   "status": "partial",
   "theorems": [
    "Wite.Props.c122_digits",
    "Wite.Props.c122_letters",
    "Wite.Props.c122_layout",
    "Wite.Props.c122_decimal",
    "Wite.Props.c122_injective_partial",
    "Wite.Props.c122_refuted_fill"
   ],
   "note": "False with a width and a digit as fill character (c122_refuted_fill). Proved: the digits denote the number in every base; distinct output when no width is set, whatever the other flags."
  },
  {
   "property": "C123",
   "status": "partial",
   "theorems": [
    "Wite.Props.c123_point",
    "Wite.Props.c123_range",
    "Wite.Props.c123_partial",
    "Wite.Props.c123_refuted"
   ],
   "note": "False for every width above 2, all values, fills and adjustments: only the opening bracket is padded (c123_refuted; c123_point and c123_range say exactly what is written). Proved up to width 2."
  },
  {
   "property": "C124",
   "status": "partial",
   "theorems": [
    "Wite.Props.c124_loop",
    "Wite.Props.c124_loop_collection",
    "Wite.Props.c124_steps",
    "Wite.Props.c124_arithmetic",
    "Wite.Props.c124_subscript",
    "Wite.Props.c124_refuted",
    "Wite.Props.c124_refuted_base",
    "Wite.Props.c124_debug_partial"
   ],
   "note": "True of loops in both builds and of everything in release builds. In debug builds every move by an offset to rbegin() (even rbegin() + 0, hence rbegin()[0] with libstdc++ and libc++, and rend() - size()) fails the assertion that the base iterator stays before end(); with a library that computes r[n] as base[-n - 1] every reverse subscript fails the assertion against negative indices."
  },
  {
   "property": "C125",
   "status": "partial",
   "theorems": [
    "Wite.Props.c125_same_element",
    "Wite.Props.c125_release",
    "Wite.Props.c125_refuted",
    "Wite.Props.c125_refuted_loop",
    "Wite.Props.c125_debug_partial"
   ],
   "note": "True in release builds. In debug builds an iterator remembers the end the vector had when the iterator was made, so stepping it past that end fails an assertion although the elements exist."
  },
  {
   "property": "C126",
   "status": "partial",
   "theorems": [
    "Wite.Props.c126_unchanged",
    "Wite.Props.c126_returns",
    "Wite.Props.c126_refuted_live",
    "Wite.Props.c126_refuted_shrink"
   ],
   "note": "The contents and size are unchanged in every case. False: copies made before the failing one stay alive behind size() until they are overwritten or the vector is destroyed; resize(n) constructs a fill value also when it only removes elements, so shrinking can throw."
  },
  {
   "property": "C127",
   "status": "partial",
   "theorems": [
    "Wite.Props.c127_assigned",
    "Wite.Props.c127_refuted",
    "Wite.Props.c127_partial"
   ],
   "note": "False: copy assignment also copies elements removed by clear() (they are still alive), slot by slot, and sets the count last. If the copy of such an element throws, slots below the target's old size() can have been emptied; reading them, also with at(), is undefined. Proved if clear() was never called: the target keeps its size and all elements can be read."
  },
  {
   "property": "C128",
   "status": "partial",
   "theorems": [
    "Wite.Props.c128_partial",
    "Wite.Props.c128_only_copy",
    "Wite.Props.c128_refuted",
    "Wite.Props.c128_refuted_value"
   ],
   "note": "False: the storage is a variant, and if neither copying nor moving of the assigned alternative is noexcept, a copy assignment that changes the alternative and throws leaves it without content. is_error() is then true and error() terminates the program. Proved if for values and for errors copying or moving is noexcept; and only copy assignment can do this."
  },
  {
   "property": "C129",
   "status": "partial",
   "theorems": [
    "Wite.Props.c129_returns",
    "Wite.Props.c129_others",
    "Wite.Props.c129_partial",
    "Wite.Props.c129_survives",
    "Wite.Props.c129_refuted_moves",
    "Wite.Props.c129_refuted_emplace",
    "Wite.Props.c129_refuted_torn"
   ],
   "note": "False: the constructors from a value or error, the move operations, emplace and swap are noexcept whatever the types, so a move or constructor that throws there terminates the program; a copy assignment can leave its target changed. Proved: other objects never change, the target neither if copies or moves are noexcept and assignments of elements are atomic; calls that return store what they should; only copies failing never ends the program."
  },
  {
   "property": "C130",
   "status": "proved",
   "theorems": [
    "Wite.Props.c130_lists",
    "Wite.Props.c130_ownership",
    "Wite.Props.c130_addresses"
   ],
   "note": ""
  },
  {
   "property": "C131",
   "status": "partial",
   "theorems": [
    "Wite.Props.c131_obtained",
    "Wite.Props.c131_follows",
    "Wite.Props.c131_shows",
    "Wite.Props.c131_loop",
    "Wite.Props.c131_equal",
    "Wite.Props.c131_partial",
    "Wite.Props.c131_refuted"
   ],
   "note": "False in debug builds for differences and ordering: an iterator remembers the collection it was obtained from, so after a move the assertion about different parents fails (c131_refuted). Proved: iterators show the same items, loops and equality work in both builds, differences and ordering in release builds."
  },
  {
   "property": "C132",
   "status": "partial",
   "theorems": [
    "Wite.Props.c132_refuted_read",
    "Wite.Props.c132_refuted_try_read",
    "Wite.Props.c132_refuted_range",
    "Wite.Props.c132_partial",
    "Wite.Props.c132_at_partial"
   ],
   "note": "False for every buffer whose elements are wider than a byte: the concepts check that `sizeof(...) == 1` is a valid expression, not that it is true, so e.g. a std::vector<uint32_t> is accepted. The number of bytes wanted is compared with the number of elements, and that many elements are copied into the value, out of its bounds, on every call that is not refused (c132_refuted_*). Proved for buffers of bytes."
  },
  {
   "property": "C133",
   "status": "partial",
   "theorems": [
    "Wite.Props.c133_read_partial",
    "Wite.Props.c133_round_trip_partial",
    "Wite.Props.c133_refuted_next",
    "Wite.Props.c133_refuted_overlap",
    "Wite.Props.c133_refuted_round_trip",
    "Wite.Props.c133_refuted_to_bytes",
    "Wite.Props.c133_refuted_from_to_bytes"
   ],
   "note": "False: sizeof(T) bytes are copied but the position moves by size() * sizeof(value_type) of the value just read, and only the elements are written. A value whose size() exceeds the buffer makes read and try_read move an iterator past the end; a following value is read from inside the first one by read (not by try_read); a value with fewer elements cannot be read back, and from_bytes(to_bytes(v)) can be undefined. Proved for types that consist of exactly their elements, such as std::array with at least one element."
  },
  {
   "property": "C134",
   "status": "partial",
   "theorems": [
    "Wite.Props.c134_as_usual_partial",
    "Wite.Props.c134_refused_partial",
    "Wite.Props.c134_one_partial",
    "Wite.Props.c134_refuted_terminate",
    "Wite.Props.c134_refuted_torn",
    "Wite.Props.c134_try_write_partial",
    "Wite.Props.c134_refuted_try_write",
    "Wite.Props.c134_refuted_read_range",
    "Wite.Props.c134_refuted_try_read_range",
    "Wite.Props.c134_empty_range_partial"
   ],
   "note": "False: byte_count takes its arguments by value and is noexcept. With several arguments a failing copy can end the program, or throw std::bad_alloc after some values have been written; in try_write and try_read_range it always ends the program; read_range can throw after having filled the caller's range. Proved: one value is written or the buffer is as it was; the first copies fail cleanly; if no allocation fails all is as usual."
  },
  {
   "property": "C135",
   "status": "partial",
   "theorems": [
    "Wite.Props.c135_others_partial",
    "Wite.Props.c135_read_partial",
    "Wite.Props.c135_read_iff_partial",
    "Wite.Props.c135_refuted_leak",
    "Wite.Props.c135_refuted_exhausted"
   ],
   "note": "False for read: the handle is a plain FILE*, and when the vector for the content cannot be made (no memory, or an impossible size) it is never closed; a program that catches the exception and tries again soon cannot open any file (c135_refuted_*). Proved for the other functions whatever the system does, and for read whenever it returns; for ordinary files a handle is left exactly when there is no memory."
  },
  {
   "property": "C136",
   "status": "partial",
   "theorems": [
    "Wite.Props.c136_partial",
    "Wite.Props.c136_refuted_large_throws",
    "Wite.Props.c136_refuted_large_empty",
    "Wite.Props.c136_refuted_pipe",
    "Wite.Props.c136_pipe_partial",
    "Wite.Props.c136_refuted_short_pipe"
   ],
   "note": "False: the size comes from ftell without looking for errors. A file longer than LONG_MAX makes read throw std::length_error (and leak), or, where fseek refuses, come back empty; a pipe makes read throw, and read with a count or try_read report bytes that are not in the file (c136_refuted_*). Proved for files whose size ftell can say."
  },
  {
   "property": "C137",
   "status": "partial",
   "theorems": [
    "Wite.Props.c137_write_partial",
    "Wite.Props.c137_round_trip_partial",
    "Wite.Props.c137_refuted_write",
    "Wite.Props.c137_refuted_read",
    "Wite.Props.c137_refuted_shrunk",
    "Wite.Props.c137_refuted_round_trip"
   ],
   "note": "False for elements wider than a byte: size() is used as the number of bytes, so a quarter of a std::vector<uint32_t> is written with success reported, and try_read fills as little (c137_refuted_*). Proved for ranges of bytes."
  },
  {
   "property": "C138",
   "status": "partial",
   "theorems": [
    "Wite.Props.c138_refuted_write",
    "Wite.Props.c138_refuted_read",
    "Wite.Props.c138_partial"
   ],
   "note": "False for paths with a NUL character: fopen sees the part before it, so another file is overwritten or read (c138_refuted_*). Proved for all other paths."
  },
  {
   "property": "C139",
   "status": "partial",
   "theorems": [
    "Wite.Props.c139_file_size_partial",
    "Wite.Props.c139_refuted_file_size",
    "Wite.Props.c139_refuted_unseekable",
    "Wite.Props.c139_reads_partial",
    "Wite.Props.c139_write_at_partial",
    "Wite.Props.c139_writes_partial"
   ],
   "note": "False for handles standing further than a long can say (file_size moves them to the end) and for files that cannot be positioned (c139_refuted_*). Proved otherwise: the size, and sequences of reads and writes of any length."
  },
  {
   "property": "C140",
   "status": "partial",
   "theorems": [
    "Wite.Props.c140_refuted_write",
    "Wite.Props.c140_refuted_read",
    "Wite.Props.c140_read_partial"
   ],
   "note": "False: get_file_pointer is noexcept and makes a std::string, so write and try_write always end the program, try_read for each of its three strings, read for the third (c140_refuted_*). Proved for the first two strings of read."
  },
  {
   "property": "C141",
   "status": "partial",
   "theorems": [
    "Wite.Props.c141_immediate_partial",
    "Wite.Props.c141_values_partial",
    "Wite.Props.c141_refuted_assigned",
    "Wite.Props.c141_refuted_temporaries",
    "Wite.Props.c141_variables_partial",
    "Wite.Props.c141_min_max_partial",
    "Wite.Props.c141_refuted_min_max",
    "Wite.Props.c141_accepted_partial"
   ],
   "note": "False: minmax of two variables returns references to them, even for int (the constraint is checked on the reference type), so after an assignment the pair shows the new values and need not be ordered; with temporaries of other types the pair dangles (c141_refuted_*). Proved: use within the expression, the by-value cases, variables that are left alone, and min and max whenever they compile; which they do not for a variable that is not const of a type that is not plain."
  },
  {
   "property": "C142",
   "status": "partial",
   "theorems": [
    "Wite.Props.c142_refuted_nan",
    "Wite.Props.c142_refuted_forms",
    "Wite.Props.c142_refuted_ignored",
    "Wite.Props.c142_refuted_zeros",
    "Wite.Props.c142_partial"
   ],
   "note": "False with NaN: min and max ignore everything from the first NaN on, unless it is the first argument and then the result; minmax gives different pairs for variables and for temporaries; the sign of a zero depends on the order (c142_refuted_*). Proved without NaN, up to the choice between equal arguments."
  },
  {
   "property": "C143",
   "status": "partial",
   "theorems": [
    "Wite.Props.c143_refuted_realloc",
    "Wite.Props.c143_refuted_shrink",
    "Wite.Props.c143_refuted_destroyed",
    "Wite.Props.c143_repair_partial",
    "Wite.Props.c143_in_place_partial",
    "Wite.Props.c143_shared_partial",
    "Wite.Props.c143_careful_partial"
   ],
   "note": "False: a view keeps an iterator, so after reallocation, clear, or shrinking to its position it cannot even be asked where it stands; nor at the end of a buffer that grows in place (c143_refuted_*). Proved: seek and try_seek repair a view after any change while the buffer exists; changes in place are seen; two views of one buffer agree; programs that seek after every change of size have no undefined behaviour in any interleaving."
  },
  {
   "property": "C144",
   "status": "partial",
   "theorems": [
    "Wite.Props.c144_refuted_short",
    "Wite.Props.c144_refuted_failed",
    "Wite.Props.c144_state_partial",
    "Wite.Props.c144_exceptions_partial"
   ],
   "note": "False with the default exception mask: a short or failed read returns a value padded with zeros, or all zeros, as if the stream held them (c144_refuted_*). Proved: the stream is good() after a sequence of reads exactly if all values are genuine, and with exceptions on failbit and badbit a sequence returns genuine values or throws."
  },
  {
   "property": "C145",
   "status": "partial",
   "theorems": [
    "Wite.Props.c145_refuted_full",
    "Wite.Props.c145_state_partial",
    "Wite.Props.c145_exceptions_partial",
    "Wite.Props.c145_round_trip_partial"
   ],
   "note": "False with the default exception mask: a full device takes part of a value and nothing of later ones, and the calls return normally (c145_refuted_full). Proved: good() afterwards exactly if everything was written, then it is read back; with exceptions on badbit everything is written or the call throws."
  },
  {
   "property": "C146",
   "status": "partial",
   "theorems": [
    "Wite.Props.c146_refuted_variables",
    "Wite.Props.c146_refuted_chained",
    "Wite.Props.c146_temporaries_partial",
    "Wite.Props.c146_ways_round_partial"
   ],
   "note": "False: a variable of a string, view or container type is deduced as a reference, which has no value_type, so no overload accepts it; the two-step example of the documentation does not compile (c146_refuted_*). Proved: exactly which temporaries are accepted and what type the result has, and the ways round for variables."
  },
  {
   "property": "C147",
   "status": "partial",
   "theorems": [
    "Wite.Props.c147_refuted_strings",
    "Wite.Props.c147_refuted_delimiters",
    "Wite.Props.c147_refuted_views",
    "Wite.Props.c147_refuted_null",
    "Wite.Props.c147_overloads_agree_partial",
    "Wite.Props.c147_split_partial",
    "Wite.Props.c147_join_partial",
    "Wite.Props.c147_round_trip_partial",
    "Wite.Props.c147_split_to_partial"
   ],
   "note": "False: split takes no std::string, a C string cannot be split with a delimiter, join takes no views and no C strings, and nullptr compiles and is undefined (c147_refuted_*). Proved: exactly which calls of split and join compile, that the overloads of split_to agree on every text that is not null, and that the result of split can be joined."
  },
  {
   "property": "C148",
   "status": "partial",
   "theorems": [
    "Wite.Props.c148_refuted_headers",
    "Wite.Props.c148_headers_partial",
    "Wite.Props.c148_refuted_throws",
    "Wite.Props.c148_try_partial"
   ],
   "note": "False: the string headers, and with them the umbrella header, stop with an #error, and fragment_string, the string of a UUID, identifiable_item_collection and static_lookup still throw (c148_refuted_*). Proved: exactly which headers compile, and that no function that reports through a result throws."
  },
  {
   "property": "C149",
   "status": "partial",
   "theorems": [
    "Wite.Props.c149_refuted_umbrella",
    "Wite.Props.c149_umbrella_partial"
   ],
   "note": "False: fragment_string.hpp, bounded_value.hpp and core/io.hpp are not included, directly or indirectly; every other header is (c149_refuted_umbrella). Proved: the umbrella header compiles with exceptions, consistent macros and an unsigned byte type."
  },
  {
   "property": "C150",
   "status": "partial",
   "theorems": [
    "Wite.Props.c150_refuted_signed",
    "Wite.Props.c150_unsigned_partial",
    "Wite.Props.c150_several_types_partial",
    "Wite.Props.c150_both_orders_partial"
   ],
   "note": "False: with int8_t, or with char where it is signed, hexlify.hpp and everything that includes it is ill-formed, among others the UUIDs and the umbrella header (c150_refuted_signed, which says exactly which headers). Proved: with an unsigned byte type all headers compile; two byte types, or both byte orders, are an error in exactly the headers listed."
  },
  {
   "property": "C151",
   "status": "partial",
   "theorems": [
    "Wite.Props.c151_agrees_partial",
    "Wite.Props.c151_write_partial",
    "Wite.Props.c151_refuted_write",
    "Wite.Props.c151_read_partial",
    "Wite.Props.c151_refuted_read",
    "Wite.Props.c151_round_trip_partial",
    "Wite.Props.c151_refuted_between",
    "Wite.Props.c151_between_partial"
   ],
   "note": "False: the macros do not look at the machine. With the macro for the order the machine does not have, little_endian and big_endian exchange their meanings, unwrapped numbers do not follow the macro, and a number passed between a program with and one without the macro arrives with its bytes reversed (c151_refuted_*). Proved: without such a macro the wrappers keep their word, and numbers always arrive in the program that wrote them and between two programs that both have such a macro or both have none."
  },
  {
   "property": "C152",
   "status": "partial",
   "theorems": [
    "Wite.Props.c152_agree_partial",
    "Wite.Props.c152_refuted_text",
    "Wite.Props.c152_refuted_round_trip",
    "Wite.Props.c152_fields_partial",
    "Wite.Props.c152_refuted_fields"
   ],
   "note": "False: with the macro for the order the machine does not have, every UUID prints its first three fields with their bytes reversed, so a UUID made from a text prints another one, and differs from the UUID made from the same fields (c152_refuted_*, with the exact exceptions). Proved: a UUID made from fields prints these fields in every configuration, and everything is as it should be without such a macro."
  },
  {
   "property": "C153",
   "status": "partial",
   "theorems": [
    "Wite.Props.c153_grows",
    "Wite.Props.c153_split_partial",
    "Wite.Props.c153_refuted_split",
    "Wite.Props.c153_trim_left_partial",
    "Wite.Props.c153_trim_right_partial",
    "Wite.Props.c153_strip_partial",
    "Wite.Props.c153_join_partial"
   ],
   "note": "False for split and split_to: they are noexcept, so every refused allocation ends the program (c153_refuted_split). Proved: which allocations they make, that the result is right if none of them is refused, and the other functions in full."
  },
  {
   "property": "C154",
   "status": "proved",
   "theorems": [
    "Wite.Props.c154_same_pieces",
    "Wite.Props.c154_parts",
    "Wite.Props.c154_local"
   ],
   "note": ""
  },
  {
   "property": "C155",
   "status": "partial",
   "theorems": [
    "Wite.Props.c155_shows_partial",
    "Wite.Props.c155_print_partial",
    "Wite.Props.c155_slices_partial",
    "Wite.Props.c155_to_str_partial",
    "Wite.Props.c155_kept_partial",
    "Wite.Props.c155_made",
    "Wite.Props.c155_refuted_shorter",
    "Wite.Props.c155_changes",
    "Wite.Props.c155_refuted_longer",
    "Wite.Props.c155_refuted_freed"
   ],
   "note": "False: the lengths are found once, but to_str() looks for the zero again. Writing a zero into a text cuts to_str() short, overwriting the zero lets it run on, and freeing a text makes it undefined, while length() stays (c155_refuted_*). Proved: what is shown is always what memory holds within the old lengths; to_str() agrees while every text is a C string as long as it was; nothing changes under actions that touch neither the texts, their zeros nor their buffers."
  },
  {
   "property": "C156",
   "status": "partial",
   "theorems": [
    "Wite.Props.c156_programs_partial",
    "Wite.Props.c156_call_partial",
    "Wite.Props.c156_objects_partial",
    "Wite.Props.c156_at_partial",
    "Wite.Props.c156_at_throws",
    "Wite.Props.c156_refuted_erase",
    "Wite.Props.c156_refuted_contains"
   ],
   "note": "False: erase() takes the pointer out of the sequence before it asks the map, so a comparison that throws there leaves an item that size(), contains() and at() show and iteration does not, and a later excise() of it is undefined (c156_refuted_erase); contains() is noexcept, so a comparison that throws in it, or in insert(), ends the program (c156_refuted_contains). Proved for all other events: nothing is lost, leaked or half done, in any program. Memory of the vector of pointers is C103."
  },
  {
   "property": "C157",
   "status": "partial",
   "theorems": [
    "Wite.Props.c157_write_partial",
    "Wite.Props.c157_refuted_struct",
    "Wite.Props.c157_indifferent_partial",
    "Wite.Props.c157_refuted_stream",
    "Wite.Props.c157_round_trip_partial",
    "Wite.Props.c157_refuted_portable",
    "Wite.Props.c157_stream_partial",
    "Wite.Props.c157_refuted_mixed",
    "Wite.Props.c157_refuted_array"
   ],
   "note": "False: little_endian and big_endian are trivial types, so everything made of them passes for a natively stored type. The stream functions ignore the wrappers altogether (c157_refuted_stream), write ignores them inside structs (c157_refuted_struct), and read<std::array<big_endian<T>, n>> gives other numbers than read_range with the same array (c157_refuted_array). The numbers in a struct come out reversed on a machine of the other byte order (c157_refuted_portable), and a wrapped number stored by the buffer functions is another number when read from a stream (c157_refuted_mixed). Proved: numbers that stand alone, in buffers, are as said, and on one machine everything is read back. Padding inside structs is not modelled."
  },
  {
   "property": "C158",
   "status": "partial",
   "theorems": [
    "Wite.Props.c158_reads_partial",
    "Wite.Props.c158_writes_partial",
    "Wite.Props.c158_refuted_try_read_range",
    "Wite.Props.c158_refuted_view_try_read_range",
    "Wite.Props.c158_refuted_try_write_at",
    "Wite.Props.c158_refuted_try_to_bytes",
    "Wite.Props.c158_refuted_try_write"
   ],
   "note": "False: try_read_range and try_read_range_at take no variable as range, try_to_bytes takes no variable, try_write_at takes no vectors, try_write of several values does not work in a deque, and write of one value does not work in a list (all refuted for every type concerned). Proved: everything else agrees, for all types, buffers and numbers of values."
  },
  {
   "property": "C159",
   "status": "partial",
   "theorems": [
    "Wite.Props.c159_types_partial",
    "Wite.Props.c159_refuted_nested",
    "Wite.Props.c159_refuted_with_endian",
    "Wite.Props.c159_refuted_pointers",
    "Wite.Props.c159_streams_partial"
   ],
   "note": "False: ranges of wrapped numbers and of arrays can be read but not written; read_with_endian and write_with_endian compile only for integers wider than a byte although their constraints let every trivial type through; the stream functions take pointers and string literals and store the address. Proved: exactly which types can be read and written."
  },
  {
   "property": "C160",
   "status": "partial",
   "theorems": [
    "Wite.Props.c160_contiguous_partial",
    "Wite.Props.c160_refuted_deque",
    "Wite.Props.c160_refuted_other",
    "Wite.Props.c160_refuted_width",
    "Wite.Props.c160_refuted_span_view"
   ],
   "note": "False: a deque can be read from only one value at a time and not at a position, a list only works with try_write of one value, byte_read_buffer_view cannot be made of a span in C++20, and read takes containers of wide elements. Proved: all contiguous containers are treated alike."
  },
  {
   "property": "C161",
   "status": "partial",
   "theorems": [
    "Wite.Props.c161_index_aborting_partial",
    "Wite.Props.c161_index_releasing_partial",
    "Wite.Props.c161_refuted_index",
    "Wite.Props.c161_iterators_aborting_partial",
    "Wite.Props.c161_iterators_releasing_partial",
    "Wite.Props.c161_reverse_partial",
    "Wite.Props.c161_reverse_items_partial",
    "Wite.Props.c161_moved_iterators_partial",
    "Wite.Props.c161_subscript_partial",
    "Wite.Props.c161_refuted_subscript",
    "Wite.Props.c161_fragment_access_partial",
    "Wite.Props.c161_fragment_search_partial",
    "Wite.Props.c161_fragment_live_partial",
    "Wite.Props.c161_ranges_partial",
    "Wite.Props.c161_numbers_partial",
    "Wite.Props.c161_setters_partial",
    "Wite.Props.c161_refuted_setters",
    "Wite.Props.c161_collections_partial",
    "Wite.Props.c161_programs_partial",
    "Wite.Props.c161_throwing_programs_partial"
   ],
   "note": "False in three places. index += and -= with the least offset negate it in the check, so they are undefined in debug builds and fine in release builds; the setters of open ranges look at the neighbour of the ends of a signed type, likewise; it[n] through an iterator older than a shrinking of the static_vector throws std::bad_optional_access in the tests' build and ends the program in the others. Proved: everything else agrees in all three builds, for single calls and for whole programs on collections."
  },
  {
   "property": "C162",
   "status": "partial",
   "theorems": [
    "Wite.Props.c162_gcc_partial",
    "Wite.Props.c162_others_partial",
    "Wite.Props.c162_refuted_clang",
    "Wite.Props.c162_refuted_ndebug",
    "Wite.Props.c162_noexcept_partial",
    "Wite.Props.c162_refuted_constexpr",
    "Wite.Props.c162_order_partial",
    "Wite.Props.c162_order_needed"
   ],
   "note": "False with every compiler but gcc: the debug configuration there depends on _DEBUG, which clang on Linux and macOS does not define, so ordinary debug builds check nothing; and _DEBUG with NDEBUG is a debug configuration without checks. The line meant to define _WITE_RELEASE_CONSTEXPR in debug configurations defines _WITW_RELEASE_CONSTEXPR, so iterators cannot be moved in constant expressions there. Proved: gcc builds check exactly without NDEBUG; exactly which builds check elsewhere; noexcept exactly where failed checks do not throw; include order does not matter."
  },
  {
   "property": "C163",
   "status": "proved",
   "theorems": [
    "Wite.Props.c163_round_trip",
    "Wite.Props.c163_one_format",
    "Wite.Props.c163_other_default",
    "Wite.Props.c163_c_str",
    "Wite.Props.c163_unknown"
   ],
   "note": ""
  },
  {
   "property": "C164",
   "status": "partial",
   "theorems": [
    "Wite.Props.c164_same_partial",
    "Wite.Props.c164_x_exact_partial",
    "Wite.Props.c164_refuted_x",
    "Wite.Props.c164_x_defined_partial"
   ],
   "note": "False for uuid_format::x, the only prefixed format with opening and closing characters: for every UUID there is a text that 'x', 'X' and uuid_format::X read as that UUID and uuid_format::x refuses. Proved: the other nine agree with their letters on all texts; uuid_format::x accepts exactly what its letter accepts between braces, and does not look behind the end of the text."
  },
  {
   "property": "C165",
   "status": "partial",
   "theorems": [
    "Wite.Props.c165_refuted_length",
    "Wite.Props.c165_refuted_short",
    "Wite.Props.c165_refuted_unterminated",
    "Wite.Props.c165_defined_partial",
    "Wite.Props.c165_digits_partial"
   ],
   "note": "False: the function passes s.data() on as a NUL-terminated string, so the end of the view is ignored. Views of fewer than 32 digits give different UUIDs in different surroundings; a view of 32 digits is undefined behaviour if no NUL follows. Proved: exactly when it is defined, and that 32 digits with a NUL somewhere behind them give their UUID."
  },
  {
   "property": "C166",
   "status": "partial",
   "theorems": [
    "Wite.Props.c166_one_string_partial",
    "Wite.Props.c166_own_end_partial",
    "Wite.Props.c166_noticed_partial",
    "Wite.Props.c166_unequal_partial",
    "Wite.Props.c166_refuted_distance",
    "Wite.Props.c166_refuted_loop",
    "Wite.Props.c166_loop_noticed_partial"
   ],
   "note": "False in release builds, which do not check: the distance between iterators of different strings is undefined, and a loop to another string's end, even that of a copy, runs off the end of the first string. Proved: both checking builds always notice; release builds never call such iterators equal; a loop to the string's own end reads its text in all builds."
  },
  {
   "property": "C167",
   "status": "proved",
   "theorems": [
    "Wite.Props.c167_keep",
    "Wite.Props.c167_drop",
    "Wite.Props.c167_keep_nothing",
    "Wite.Props.c167_drop_digit"
   ],
   "note": ""
  },
  {
   "property": "C168",
   "status": "partial",
   "theorems": [
    "Wite.Props.c168_digits_partial",
    "Wite.Props.c168_refuted",
    "Wite.Props.c168_exact_partial",
    "Wite.Props.c168_there_and_back_partial"
   ],
   "note": "False for every UUID of which one of the first three fields reads differently backwards: str prints these fields as numbers, most significant byte first, and they are stored least significant byte first. Proved: hexlify(id.data) is the text of the UUID with these fields reversed, and the two agree exactly if reversing changes nothing."
  },
  {
   "property": "C169",
   "status": "proved",
   "theorems": [
    "Wite.Props.c169_keep",
    "Wite.Props.c169_keep_nothing",
    "Wite.Props.c169_drop"
   ],
   "note": ""
  },
  {
   "property": "C170",
   "status": "proved",
   "theorems": [
    "Wite.Props.c170_exact",
    "Wite.Props.c170_wrapped",
    "Wite.Props.c170_unwrapped",
    "Wite.Props.c170_uuid_text"
   ],
   "note": ""
  },
  {
   "property": "C171",
   "status": "partial",
   "theorems": [
    "Wite.Props.c171_half_open_partial",
    "Wite.Props.c171_dense_partial",
    "Wite.Props.c171_refuted_closed",
    "Wite.Props.c171_refuted_inverted",
    "Wite.Props.c171_refuted_open",
    "Wite.Props.c171_count_partial",
    "Wite.Props.c171_size_partial",
    "Wite.Props.c171_unsigned_partial",
    "Wite.Props.c171_refuted_size",
    "Wite.Props.c171_refuted_flt",
    "Wite.Props.c171_refuted_nan"
   ],
   "note": "False: empty() compares the ends only, so a closed range of one value is called empty, and an open range between neighbours (integers or floating-point numbers), which contains nothing, is not; size() of a signed range wider than the largest value is undefined, or negative for types narrower than int. Proved: empty() is right for ranges with one open end; how many integers each range contains; size() is right where the type holds the difference, for unsigned types always."
  },
  {
   "property": "C172",
   "status": "partial",
   "theorems": [
    "Wite.Props.c172_contains_partial",
    "Wite.Props.c172_refuted_contains",
    "Wite.Props.c172_overlap_partial",
    "Wite.Props.c172_refuted_overlap",
    "Wite.Props.c172_clamp_partial",
    "Wite.Props.c172_refuted_clamp",
    "Wite.Props.c172_envelope_partial",
    "Wite.Props.c172_refuted_envelope"
   ],
   "note": "False for NaN only: every range contains it, ranges without overlap too; clamp returns it; with NaN first, envelope ends the program in checking builds and gives a range of everything in release builds. Proved for all other values, infinities and signed zeros included."
  },
  {
   "property": "C173",
   "status": "partial",
   "theorems": [
    "Wite.Props.c173_same_partial",
    "Wite.Props.c173_iff_partial",
    "Wite.Props.c173_relation_partial",
    "Wite.Props.c173_refuted_nothing",
    "Wite.Props.c173_flt_partial",
    "Wite.Props.c173_refuted_nan"
   ],
   "note": "False for ranges without values: two that consist of one point each and have an open end contain the same and are not equal; and a range with NaN for an end, which release builds make, is not equal to itself. Proved for all ranges that contain something, signed zeros included; equal ranges always contain the same."
  },
  {
   "property": "C174",
   "status": "partial",
   "theorems": [
    "Wite.Props.c174_double_partial",
    "Wite.Props.c174_interpolate_partial",
    "Wite.Props.c174_upper_partial",
    "Wite.Props.c174_near_partial",
    "Wite.Props.c174_fraction_partial",
    "Wite.Props.c174_unit_partial",
    "Wite.Props.c174_normal_partial",
    "Wite.Props.c174_refuted_overflow",
    "Wite.Props.c174_refuted_tiny",
    "Wite.Props.c174_refuted_upper_end",
    "Wite.Props.c174_refuted_interpolate"
   ],
   "note": "False: fraction converts only value - min to double, so fraction(b, a, b) is infinite if the difference is above the largest double, 0 if it is below the smallest, 1 - 2^-53 or above 1 for others; interpolate misses b at 1 as for double (C104). Proved: fraction is never NaN, not negative, monotone, 0 at a; between 0 and 1 where the difference is in the range of normal doubles, and 1 at b where it is a double; interpolate is monotone, a at 0, never below a, and b at 1 if b - a is exact; otherwise finite results miss b by at most 2^-m of the difference, where m is 63 for the long double of x86 (c174_near_partial)."
  },
  {
   "property": "C175",
   "status": "partial",
   "theorems": [
    "Wite.Props.c175_search",
    "Wite.Props.c175_sort_partial",
    "Wite.Props.c175_sort_increments_partial",
    "Wite.Props.c175_sort_checked_partial",
    "Wite.Props.c175_refuted_one",
    "Wite.Props.c175_refuted_last",
    "Wite.Props.c175_sort_then_search_partial"
   ],
   "note": "False for sorting in builds that check, where the standard library computes the next iterator by `+ 1` (libstdc++, at most sixteen elements): operator+ does not admit the end, so sorting one element fails an assertion, and so does sorting two or more of which the last is less than all others. Proved: the search in every build; the sort in release builds, in checking builds for all other contents, and in every build where the library uses `++`. Not modelled: std::sort of more elements (introsort)."
  },
  {
   "property": "C176",
   "status": "proved",
   "theorems": [
    "Wite.Props.c176_uuid",
    "Wite.Props.c176_index",
    "Wite.Props.c176_point",
    "Wite.Props.c176_range",
    "Wite.Props.c176_fragments",
    "Wite.Props.c176_failed",
    "Wite.Props.c176_values"
   ],
   "note": ""
  },
  {
   "property": "C177",
   "status": "proved",
   "theorems": [
    "Wite.Props.c177_alone",
    "Wite.Props.c177_sequence",
    "Wite.Props.c177_device_fails",
    "Wite.Props.c177_version"
   ],
   "note": ""
  },
  {
   "property": "C178",
   "status": "partial",
   "theorems": [
    "Wite.Props.c178_index_partial",
    "Wite.Props.c178_ends_partial",
    "Wite.Props.c178_copy_partial",
    "Wite.Props.c178_substr_partial",
    "Wite.Props.c178_substr_end_partial",
    "Wite.Props.c178_starts_with_partial",
    "Wite.Props.c178_ends_with_partial",
    "Wite.Props.c178_compare_partial",
    "Wite.Props.c178_refuted_compare",
    "Wite.Props.c178_find_partial",
    "Wite.Props.c178_find_empty",
    "Wite.Props.c178_refuted_find",
    "Wite.Props.c178_contains_partial",
    "Wite.Props.c178_contains_fs_partial",
    "Wite.Props.c178_starts_with_fs_partial",
    "Wite.Props.c178_ends_with_fs_partial",
    "Wite.Props.c178_compare_fs_partial",
    "Wite.Props.c178_refuted_self"
   ],
   "note": "False as stated. compare says of every text followed by two or more empty fragments that it is greater than itself, in every build (c178_refuted_compare); no fragment string with an empty fragment before its last can be compared with itself (c178_refuted_self); find of a character as a string is undefined unless it stands before the first empty fragment (c178_refuted_find). Proved: the exact result of every call of each of these functions, with strings and with other fragment strings, in terms of where the empty fragments of both stand (GapAt); contains of a fragment string leaves the last offset out (C90). Missing: substr when pos + count wraps (C93) and find when pos + size wraps (C92)."
  },
  {
   "property": "C179",
   "status": "partial",
   "theorems": [
    "Wite.Props.c179_vector_partial",
    "Wite.Props.c179_refuted",
    "Wite.Props.c179_steps",
    "Wite.Props.c179_reverse",
    "Wite.Props.c179_sort_release",
    "Wite.Props.c179_rvector_partial",
    "Wite.Props.c179_collection_partial",
    "Wite.Props.c179_fragments",
    "Wite.Props.c179_two_partial",
    "Wite.Props.c179_copy",
    "Wite.Props.c179_equal"
   ],
   "note": "False in builds with assertions: begin() + (end() - begin()) is defined for arrays and fails an assertion for every static_vector (c179_refuted). Proved: in release builds the whole claim for static_vector; in the others the same up to the first jump by +, -, += or -= to end() or [] with a negative index, and exactly that assertion there; algorithms that only step, in every build; collections likewise for algorithms that do not write; fragment strings without empty fragments before the last, in every build. An algorithm must also compile: iterators of fragment strings cannot be assigned, and [] exists neither for them nor for those of collections (C193 says exactly what compiles). Algorithms that take iterators of two containers of any of these kinds likewise: the same results and contents as for two arrays in release builds, and in the others if they only step; if they jump, the same or a failed assertion (c179_two_partial, with std::copy and std::equal). Missing: algorithms over more than two containers, containers of different element types, and fragment strings with inner empty fragments (C178 has what the member functions do there)."
  },
  {
   "property": "C180",
   "status": "partial",
   "theorems": [
    "Wite.Props.c180_partial",
    "Wite.Props.c180_distinct_partial",
    "Wite.Props.c180_same",
    "Wite.Props.c180_map",
    "Wite.Props.c180_refuted_finer",
    "Wite.Props.c180_refuted_coarser",
    "Wite.Props.c180_refuted_dangling"
   ],
   "note": "False: erase looks for the item with == and then erases the key from the map. An id that is == to an item's but a different key hides the item and keeps it in the map (c180_refuted_coarser), or with two such items leaves a dangling pointer in the iteration order (c180_refuted_dangling); an id with an equivalent key that is not == is contained but not erased (c180_refuted_finer). All three for every type with such ids. Proved: for std::map whenever == means that neither id is less, the whole claim (c180_map); whenever == implies equivalence, every program behaves as an insertion-ordered list with pairwise inequivalent ids, erase going by == (c180_partial). Missing: ids whose comparisons throw (C156) or change their answers, comparisons that are no equivalence (undefined for std::map)."
  },
  {
   "property": "C181",
   "status": "partial",
   "theorems": [
    "Wite.Props.c181_write_partial",
    "Wite.Props.c181_write_at_partial",
    "Wite.Props.c181_try_partial",
    "Wite.Props.c181_refuted_swap",
    "Wite.Props.c181_span",
    "Wite.Props.c181_refuted_span",
    "Wite.Props.c181_read_partial",
    "Wite.Props.c181_refuted_read"
   ],
   "note": "False: write refers to its arguments while it writes. write(buffer, second, first) stores second twice for every two different objects, where try_write swaps them (c181_refuted_swap); a span written an object or more further up repeats its first bytes (c181_span, c181_refuted_span), and so does read_range (c181_refuted_read). Proved: with every argument at or after its own destination or before all of them, write and write_at are as with copies (c181_write_partial, c181_write_at_partial); for try_write of several values only the spans have to be (c181_try_partial); read_range accordingly (c181_read_partial). Missing: which of the other overlaps happen to give the right bytes, try_write_at of spans, ranges of encoded values read into the buffer; whether copy_n has to support overlapping ranges at all is taken from its wording in the standard."
  },
  {
   "property": "C182",
   "status": "partial",
   "theorems": [
    "Wite.Props.c182_one",
    "Wite.Props.c182_erase_partial",
    "Wite.Props.c182_refuted_erase",
    "Wite.Props.c182_refuted_twice",
    "Wite.Props.c182_insert_self"
   ],
   "note": "False for erase of several arguments: an argument that refers to an item which an argument before it has erased is read after the item's destruction, unless the collection is empty by then. Exact: the call is undefined precisely in that case (c182_refuted_erase), and is as with copies in every other (c182_erase_partial); naming the same item twice by a reference is undefined precisely if there is another item (c182_refuted_twice). Functions that take one id are always as with a copy (c182_one), given that map::erase finds the node before it destroys it, as the three standard libraries do. Inserting a collection into itself: c182_insert_self. Ids are compared by one equality here (C180 has two)."
  },
  {
   "property": "C183",
   "status": "partial",
   "theorems": [
    "Wite.Props.c183_effect_partial",
    "Wite.Props.c183_same_as_copy",
    "Wite.Props.c183_refuted_lost",
    "Wite.Props.c183_counts_partial",
    "Wite.Props.c183_refuted_copies",
    "Wite.Props.c183_destroyed"
   ],
   "note": "True for arguments that are not moved from, elements of the vector included (c183_same_as_copy), and no object is leaked or destroyed twice (c183_destroyed). False for moved arguments: the parameter of resize is made before the size is checked, so a call that throws has taken the value away and no element has it (c183_refuted_lost, for every vector and argument), and so has a call that shrinks. False for the number of copies: two for push_back(x), one for push_back(std::move(x)), always (c183_refuted_copies), so that types which can only be moved cannot be stored. Exact effects and exact numbers of copies, moves, assignments and destructions of every call: c183_effect_partial, c183_counts_partial. Missing: programs in which these operations throw (C126 has throwing copies of values)."
  },
  {
   "property": "C184",
   "status": "partial",
   "theorems": [
    "Wite.Props.c184_compiles",
    "Wite.Props.c184_same_numbers_partial",
    "Wite.Props.c184_refuted_argument",
    "Wite.Props.c184_refuted_fraction",
    "Wite.Props.c184_refuted_value",
    "Wite.Props.c184_refuted_key"
   ],
   "note": "True if the types of the lookup have all the numbers involved (c184_same_numbers_partial). False otherwise, because common_type_t only looks at the first type (c184_compiles says exactly which calls compile; make_static_lookup of a single pair does not) and everything else is converted: at(key + m * 2^bits) finds key, for every integer key type and every table (c184_refuted_argument); at of a floating-point number drops the fraction (c184_refuted_fraction); values come back as remainders (c184_refuted_value); keys of different pairs become the same key (c184_refuted_key). Missing: types that are not numbers, and bool."
  },
  {
   "property": "C185",
   "status": "partial",
   "theorems": [
    "Wite.Props.c185_same_numbers_partial",
    "Wite.Props.c185_setters_partial",
    "Wite.Props.c185_refuted_wrap",
    "Wite.Props.c185_refuted_setters",
    "Wite.Props.c185_refuted_make",
    "Wite.Props.c185_refuted_fraction",
    "Wite.Props.c185_refuted_open",
    "Wite.Props.c185_never_rejects_partial"
   ],
   "note": "True for every number the type of the range has (c185_same_numbers_partial), and a closed range never rejects a number between its bounds, whatever the types (c185_never_rejects_partial). False otherwise, because the argument is converted first: every range of integers contains v + m * 2^bits with v (c185_refuted_wrap, for all types, ranges and numbers), bounds are taken modulo 2^bits (c185_refuted_make), closed ranges of integers contain fractions beyond their bounds (c185_refuted_fraction) and open ones reject fractions inside (c185_refuted_open). The setters min(x) and max(x) set the number given if the type has it (c185_setters_partial) and its remainder otherwise, without a complaint in any build (c185_refuted_setters). Missing: types that are not numbers."
  },
  {
   "property": "C186",
   "status": "partial",
   "theorems": [
    "Wite.Props.c186_bounds_partial",
    "Wite.Props.c186_contains_partial",
    "Wite.Props.c186_refuted_contains",
    "Wite.Props.c186_refuted_smallest",
    "Wite.Props.c186_refuted_variable"
   ],
   "note": "The bounds are the least and greatest bound (c186_bounds_partial), but their kinds are those of the first argument alone. Exactly when all values are contained: c186_contains_partial. Not so whenever an open range comes first and a closed one reaches as far (c186_refuted_contains, which also shows that the order matters); not the smallest range whenever a closed one comes first and an open one lies around it (c186_refuted_smallest); and envelope of a container in a variable does not compile, because the return type asks a reference for its value_type (c186_refuted_variable). Missing: nothing for ranges of one value type; ranges of several value types do not compile."
  },
  {
   "property": "C187",
   "status": "partial",
   "theorems": [
    "Wite.Props.c187_any_container_partial",
    "Wite.Props.c187_no_exception",
    "Wite.Props.c187_static_fits_partial",
    "Wite.Props.c187_refuted_full",
    "Wite.Props.c187_refuted_delimiters",
    "Wite.Props.c187_pointer"
   ],
   "note": "True for every container whose push_back appends and does not fail (c187_any_container_partial) and for every static_vector with room for all pieces (c187_static_fits_partial). False otherwise: split_to is noexcept, so no exception reaches the caller (c187_no_exception), and the program is terminated for every text with more pieces than the capacity (c187_refuted_full); with keep_empty exactly when there are at least as many delimiters as the capacity (c187_refuted_delimiters). Missing: failing allocations of the pieces."
  },
  {
   "property": "C188",
   "status": "partial",
   "theorems": [
    "Wite.Props.c188_own_types",
    "Wite.Props.c188_number_kept_partial",
    "Wite.Props.c188_refuted_ambiguous",
    "Wite.Props.c188_refuted_promoted",
    "Wite.Props.c188_braces_partial",
    "Wite.Props.c188_refuted_braces",
    "Wite.Props.c188_refuted_wrap",
    "Wite.Props.c188_refuted_fraction",
    "Wite.Props.c188_value_or_partial"
   ],
   "note": "Numbers of the value or error type are kept (c188_own_types). With numbers as both value and error type, whatever compiles keeps the number (c188_number_kept_partial), but it may become an error: always for types narrower than int when the error is an int and the value is not, also through and_then (c188_refuted_promoted); and types that are neither of the two nor promoted to one do not compile (c188_refuted_ambiguous, exactly those). With an error that is not a number, what is put in braces is kept if it compiles (c188_braces_partial), integers for floating-point values do not compile there (c188_refuted_braces), and without braces, and in value_or, numbers the value type does not have become their remainder (c188_refuted_wrap) or lose their fraction (c188_refuted_fraction); value_or is right for all others (c188_value_or_partial). Missing: bool, enumerations and constants in braces."
  },
  {
   "property": "C189",
   "status": "partial",
   "theorems": [
    "Wite.Props.c189_points_kept",
    "Wite.Props.c189_refuted_parens",
    "Wite.Props.c189_same_number_partial",
    "Wite.Props.c189_refuted_wrap",
    "Wite.Props.c189_refuted_fraction"
   ],
   "note": "Every construction of a point that compiles keeps the numbers (c189_points_kept), but point<n, t>(...) compiles only for arguments of type t itself, and point_2d and its like never take an integer for a floating-point coordinate (c189_refuted_parens). Setting a coordinate and making an id or a bounded value keeps every number the type has, and ids and bounded values in braces keep whatever compiles (c189_same_number_partial); other integers become their remainder, so that ids made of different numbers are equal (c189_refuted_wrap), and fractions are cut off (c189_refuted_fraction). Missing: bool, and constants in braces (which may be of any type that holds their value)."
  },
  {
   "property": "C190",
   "status": "partial",
   "theorems": [
    "Wite.Props.c190_exact_partial",
    "Wite.Props.c190_refuted_unsigned",
    "Wite.Props.c190_refuted_half",
    "Wite.Props.c190_refuted_make",
    "Wite.Props.c190_refuted_fraction"
   ],
   "note": "Numbers that are a size_t, and offsets strictly between -2^63 and 2^63, do what they should whatever their type (c190_exact_partial). Offsets of type size_t above 2^63 do the opposite in debug builds: exactly the moves that stay in the range are rejected and exactly those that leave it are let through (c190_refuted_unsigned); 2^63 itself is undefined there (c190_refuted_half). Indices made of negative numbers are their remainder (c190_refuted_make), and moves by fractions are cut off towards zero (c190_refuted_fraction)."
  },
  {
   "property": "C191",
   "status": "partial",
   "theorems": [
    "Wite.Props.c191_own",
    "Wite.Props.c191_generic",
    "Wite.Props.c191_visit",
    "Wite.Props.c191_order",
    "Wite.Props.c191_forgotten_partial",
    "Wite.Props.c191_refuted_forgotten",
    "Wite.Props.c191_refuted_promoted",
    "Wite.Props.c191_ambiguous_partial"
   ],
   "note": "The function of the type and the auto function are called as stated (c191_own, c191_generic, c191_visit) in any order (c191_order). Forgotten alternatives that are not numbers are noticed (c191_forgotten_partial). False for numbers: a forgotten number type is converted to the parameter of the only function for numbers (c191_refuted_forgotten) or to what it is promoted to (c191_refuted_promoted); only with functions for two other number types it is noticed (c191_ambiguous_partial). Missing: bool, parameters that are references to non-const, classes with conversions, variants without a value."
  },
  {
   "property": "C192",
   "status": "partial",
   "theorems": [
    "Wite.Props.c192_braces",
    "Wite.Props.c192_exact",
    "Wite.Props.c192_defined_partial",
    "Wite.Props.c192_refuted"
   ],
   "note": "With empty braces or static storage it holds for every type (c192_braces); without an initialiser exactly for types without a number or pointer outside of members with an initialiser (c192_exact): UUIDs, results, static_vectors, fragment strings, iterators, arguments of make_vector, and ids and ranges of these (c192_defined_partial). False for indices, ids and ranges of numbers, points and the endianness wrappers: all of their members are indeterminate, and reading or comparing them is undefined (c192_refuted)."
  },
  {
   "property": "C193",
   "status": "partial",
   "theorems": [
    "Wite.Props.c193_exact_partial",
    "Wite.Props.c193_refuted",
    "Wite.Props.c193_refuted_swap",
    "Wite.Props.c193_refuted_fragments",
    "Wite.Props.c193_refuted_collections",
    "Wite.Props.c193_mixed",
    "Wite.Props.c193_substitute",
    "Wite.Props.c193_write",
    "Wite.Props.c193_conversions"
   ],
   "note": "False: n + a compiles for no iterator of the library (c193_refuted) and swap(a, b) neither, because the friend of the class names a member that does not exist (c193_refuted_swap); a[n] does not compile for iterators of collections (c193_refuted_collections); those of fragment strings have no default constructor, assignment, postfix operators, -> or [] (c193_refuted_fragments); iterator - const_iterator does not compile (c193_mixed). Proved: exactly which of the required expressions compile, with the required types (c193_exact_partial); what compiles with const_iterators compiles with iterators in their place (c193_substitute); comparisons of the two compile (c193_mixed)."
  },
  {
   "property": "C194",
   "status": "proved",
   "theorems": [
    "Wite.Props.c194_expressions",
    "Wite.Props.c194_programs",
    "Wite.Props.c194_ids",
    "Wite.Props.c194_compile",
    "Wite.Props.c194_arithmetic",
    "Wite.Props.c194_types_needed",
    "Wite.Props.c194_values",
    "Wite.Props.c194_id_meaning",
    "Wite.Props.c194_index_meaning",
    "Wite.Props.c194_unequal"
   ],
   "note": ""
  },
  {
   "property": "C195",
   "status": "partial",
   "theorems": [
    "Wite.Props.c195_exact_partial",
    "Wite.Props.c195_unchanged_partial",
    "Wite.Props.c195_arguments_partial",
    "Wite.Props.c195_refuted",
    "Wite.Props.c195_refuted_getters",
    "Wite.Props.c195_set_min_partial",
    "Wite.Props.c195_set_max_partial",
    "Wite.Props.c195_refuted_torn",
    "Wite.Props.c195_computes_partial",
    "Wite.Props.c195_refuted_arith",
    "Wite.Props.c195_disorder",
    "Wite.Props.c195_set_min_open_partial",
    "Wite.Props.c195_set_max_open_partial"
   ],
   "note": "False: apart from the copies of arguments, which the caller makes, every exception inside contains, below_min, above_max, clamp, ==, !=, empty, min(), max(), is_in_bounds and clamp() ends the program in every build, and every exception inside the constructor, overlap and the setters does in builds other than the debug build with exceptions. c195_exact_partial gives the operations a call performs in order, and what the exception of each leads to; c195_set_min_partial and c195_set_max_partial the same for the setters, whose assignment can leave a torn bound (c195_refuted_torn). c195_computes_partial does the same for the functions that compute, of which only size and width in a debug build let the exception of the arithmetic out (c195_refuted_arith), and c195_set_min_open_partial and c195_set_max_open_partial for the setters of open bounds; c195_disorder says what size, width and mid do on a range that is not in order. Missing: other calls on ranges that are not in order, and temporaries as arguments."
  },
  {
   "property": "C196",
   "status": "partial",
   "theorems": [
    "Wite.Props.c196_text_order_partial",
    "Wite.Props.c196_same_fields_partial",
    "Wite.Props.c196_refuted"
   ],
   "note": "False: a UUID is stored with its first three fields in little-endian order and compared byte by byte, but printed with the most significant digits first; two UUIDs of which one is less in its first byte and greater in its fourth are ordered one way and their texts the other, in every format (c196_refuted). Proved: the texts are ordered by the fields as numbers, then by the last eight bytes (c196_text_order_partial), and UUIDs with the same first eight bytes are ordered like their texts."
  },
  {
   "property": "C197",
   "status": "partial",
   "theorems": [
    "Wite.Props.c197_all_or_nothing_partial",
    "Wite.Props.c197_afterwards_partial",
    "Wite.Props.c197_refuted"
   ],
   "note": "False: during stack unwinding the guards run although the block succeeds, so no such block ever has an effect there (c197_refuted). Proved: with no exception in flight around it the block is all or nothing, and a later exception undoes nothing."
  },
  {
   "property": "C198",
   "status": "partial",
   "theorems": [
    "Wite.Props.c198_exact",
    "Wite.Props.c198_plain_partial",
    "Wite.Props.c198_refuted_namespaces",
    "Wite.Props.c198_refuted_standard",
    "Wite.Props.c198_refuted_order",
    "Wite.Props.c198_refuted_wide",
    "Wite.Props.c198_refuted_umbrella",
    "Wite.Props.c198_headers",
    "Wite.Props.c198_lookalikes"
   ],
   "note": "False: the operators are in the global namespace and the types in wite, so argument-dependent lookup does not find them. In a namespace that declares any operator<<, and from the standard library (std::ostream_iterator), nothing of the library can be inserted unless a class in the global namespace is among its template arguments (c198_refuted_namespaces, c198_refuted_standard); a range of ids cannot be inserted if maths/io.hpp was included before core/io.hpp (c198_refuted_order); ids and indices never go into wide streams (c198_refuted_wide); wite.hpp, core.hpp and string.hpp do not include core/io.hpp and fragment_string.hpp (c198_refuted_umbrella). Proved: exactly when an insertion compiles (c198_exact), in particular in code outside such namespaces with the includes in the right order."
  },
  {
   "property": "C199",
   "status": "partial",
   "theorems": [
    "Wite.Props.c199_exact",
    "Wite.Props.c199_item_partial",
    "Wite.Props.c199_converted_partial",
    "Wite.Props.c199_id_partial",
    "Wite.Props.c199_several_partial",
    "Wite.Props.c199_refuted_result",
    "Wite.Props.c199_refuted_container",
    "Wite.Props.c199_refuted_views",
    "Wite.Props.c199_refuted_moved",
    "Wite.Props.c199_refuted_move_only",
    "Wite.Props.c199_refuted_ids",
    "Wite.Props.c199_refuted_detect",
    "Wite.Props.c199_refuted_detect_range",
    "Wite.Props.c199_refuted_immovable"
   ],
   "note": "False: try_insert of an object of a derived class returns std::array<bool, 1> (c199_refuted_result); what converts to an item but contains items is inserted element by element (c199_refuted_container); ranges without a nested value_type, like the standard views, are not accepted (c199_refuted_views); the items of a temporary range are copied (c199_refuted_moved), so that items that can only be moved cannot be inserted from one (c199_refuted_move_only); several ids in one call are possible only if they are wite::id (c199_refuted_ids); ids of other classes are accepted by overload resolution and fail in the body (c199_refuted_detect); items that cannot be moved can only be emplaced (c199_refuted_immovable). Proved: exactly which calls compile and what they do (c199_exact, c199_several_partial), in particular for arguments of the item type itself, even if it is a range of items. Missing: braced lists, explicit template arguments."
  },
  {
   "property": "C200",
   "status": "partial",
   "theorems": [
    "Wite.Props.c200_exact",
    "Wite.Props.c200_exact_try",
    "Wite.Props.c200_exact_views",
    "Wite.Props.c200_exact_streams",
    "Wite.Props.c200_exact_hex",
    "Wite.Props.c200_integers_partial",
    "Wite.Props.c200_written_partial",
    "Wite.Props.c200_refuted_read",
    "Wite.Props.c200_refuted_ranges",
    "Wite.Props.c200_refuted_classes",
    "Wite.Props.c200_refuted_hex",
    "Wite.Props.c200_refuted_unconstrained",
    "Wite.Props.c200_refuted_streams"
   ],
   "note": "False: a scalar whose bytes are no value, for example a bool from a byte other than 0 and 1 as in the README's example of a view, makes every reading function undefined, the try_ functions included (c200_refuted_read, c200_refuted_ranges, c200_refuted_streams, c200_refuted_hex); a class with such a member is returned without complaint (c200_refuted_classes); from_hex_chars accepts types that are not trivially copyable (c200_refuted_unconstrained). Proved: exactly when each function is undefined (c200_exact and the other c200_exact theorems), never for types all of whose bytes are values (c200_integers_partial), nor for what the library wrote (c200_written_partial). Missing: copies of classes that load their members, loads by the caller after the call."
  },
  {
   "property": "C201",
   "status": "partial",
   "theorems": [
    "Wite.Props.c201_exact_read",
    "Wite.Props.c201_exact_try",
    "Wite.Props.c201_exact_write",
    "Wite.Props.c201_exact_try_write",
    "Wite.Props.c201_char_like_partial",
    "Wite.Props.c201_same_type_partial",
    "Wite.Props.c201_refuted",
    "Wite.Props.c201_refuted_to_bytes"
   ],
   "note": "False: objects are accessed through a pointer to the buffer's element type, which C++ allows only for char, unsigned char and std::byte, or if the object is made of that type or its unsigned counterpart. For every other element type reading or writing any type with a wider member is undefined (c201_refuted); with WITE_USER_DEFINED_BYTE_TYPE_I8 to_bytes is undefined for all such values (c201_refuted_to_bytes). Proved: exactly when each function is undefined (c201_exact_read, c201_exact_try, c201_exact_write, c201_exact_try_write), never for the three types (c201_char_like_partial), nor for objects made of the element type (c201_same_type_partial). Missing: std::vector<bool>, elements that are classes, try_write through views."
  },
  {
   "property": "C202",
   "status": "partial",
   "theorems": [
    "Wite.Props.c202_partial",
    "Wite.Props.c202_cases_partial",
    "Wite.Props.c202_effect_partial",
    "Wite.Props.c202_refuted_write",
    "Wite.Props.c202_refuted_try_write",
    "Wite.Props.c202_refuted_count",
    "Wite.Props.c202_refuted_compile",
    "Wite.Props.c202_refuted_headers"
   ],
   "note": "False: strings and string views are buffers too, and an exact match beats the conversion to a path. With byte_buffer_write.hpp included, write and try_write of a std::string that is not const overwrite the name and leave the file alone, reporting success if the name is long enough (c202_refuted_write, c202_refuted_try_write, c202_refuted_count); const strings, wide strings and views do not compile, nor does read of a whole file with byte_buffer_read.hpp (c202_refuted_compile); so an include changes what a call means (c202_refuted_headers). Proved: in all other cases the file is found (c202_partial, c202_cases_partial) and the call does what the functions for files do (c202_effect_partial). Missing: names of other types, for instance iterators."
  },
  {
   "property": "C203",
   "status": "partial",
   "theorems": [
    "Wite.Props.c203_same_string_partial",
    "Wite.Props.c203_same_vector_partial",
    "Wite.Props.c203_refuted_string",
    "Wite.Props.c203_refuted_index",
    "Wite.Props.c203_refuted_search",
    "Wite.Props.c203_string_partial",
    "Wite.Props.c203_vector_exact",
    "Wite.Props.c203_refuted_builds",
    "Wite.Props.c203_refuted_shrink",
    "Wite.Props.c203_others_partial",
    "Wite.Props.c203_refuted_others"
   ],
   "note": "False. The constructor of fragment_string's iterators is not constexpr, so indexing, comparing, copying, substrings, prefixes and suffixes are never constant expressions (c203_refuted_string, c203_refuted_index), and searches only if they have nothing to do (c203_refuted_search). Stepping the iterators of a static_vector is constexpr in release builds only, so comparing equal vectors is a constant expression there and nowhere else (c203_refuted_builds), and making a vector smaller never is (c203_refuted_shrink); is_not_whitespace and the guards for success and failure never are (c203_refuted_others). Proved: exactly when the functions of vectors are (c203_vector_exact), and that the remaining functions are whenever they return (c203_string_partial, c203_others_partial); the evaluations modelled have the outcomes of the models of the functions (c203_same_string_partial, c203_same_vector_partial). Missing: collections of identifiable items, whose member of type std::map rules out constant expressions altogether; bounded values, points and vectors; element types whose own operations are not constexpr."
  },
  {
   "property": "C204",
   "status": "partial",
   "theorems": [
    "Wite.Props.c204_exact",
    "Wite.Props.c204_exact_others",
    "Wite.Props.c204_partial",
    "Wite.Props.c204_refuted_forms",
    "Wite.Props.c204_refuted_characters",
    "Wite.Props.c204_refuted_fragments",
    "Wite.Props.c204_same_text",
    "Wite.Props.c204_answers_partial",
    "Wite.Props.c204_refuted_wide_compare",
    "Wite.Props.c204_wide_compare_partial",
    "Wite.Props.c204_refuted_char32_compare"
   ],
   "note": "False. No fragment string can be made of a string or a view or joined with a string, no text can stand on the left of +, there is no ==, and strings of other than narrow characters compare with no text of their own characters (c204_refuted_forms) but do compare with narrow text, where characters of the same code differ (c204_refuted_wide_compare, c204_refuted_char32_compare). Characters of every type are converted silently, and + takes none (c204_refuted_characters); fragment strings cannot be searched for with find (c204_refuted_fragments). Proved: exactly what is taken (c204_exact, c204_exact_others, c204_partial), that all forms of a text are treated alike (c204_same_text), and what the calls give (c204_answers_partial) and how wide strings compare with narrow text (c204_wide_compare_partial). Missing: null pointers, braced lists, numbers that are no characters, classes with conversions; empty fragments other than the last in c204_answers_partial."
  },
  {
   "property": "C205",
   "status": "partial",
   "theorems": [
    "Wite.Props.c205_copy",
    "Wite.Props.c205_copy_partial",
    "Wite.Props.c205_refuted_cleared",
    "Wite.Props.c205_move",
    "Wite.Props.c205_refuted_moved",
    "Wite.Props.c205_assign_partial",
    "Wite.Props.c205_swap_partial",
    "Wite.Props.c205_self",
    "Wite.Props.c205_destroyed",
    "Wite.Props.c205_only_partial",
    "Wite.Props.c205_values"
   ],
   "note": "False. A vector that was cleared still holds its old elements, and copies of it copy them and keep them alive (c205_refuted_cleared); a vector that was moved from has as many elements as before, each of them moved from (c205_refuted_moved). Proved: what the new vector shows and exactly which objects are copied or moved (c205_copy, c205_move), that every object made is destroyed exactly once in every program (c205_destroyed), that without clear() all vectors hold nothing but their elements (c205_only_partial), and what copying, assigning and swapping such vectors does (c205_copy_partial, c205_assign_partial, c205_swap_partial); vectors assigned to, swapped with or moved onto themselves (c205_self). Missing: element operations that throw (C126, C127), trivially copyable elements."
  },
  {
   "property": "C206",
   "status": "partial",
   "theorems": [
    "Wite.Props.c206_map_partial",
    "Wite.Props.c206_uuid_map",
    "Wite.Props.c206_index_map",
    "Wite.Props.c206_id_map",
    "Wite.Props.c206_point_map",
    "Wite.Props.c206_int_map",
    "Wite.Props.c206_float_map_partial",
    "Wite.Props.c206_refuted_nan",
    "Wite.Props.c206_refuted_nan_first",
    "Wite.Props.c206_unordered_partial",
    "Wite.Props.c206_uuid_unordered",
    "Wite.Props.c206_types_map",
    "Wite.Props.c206_refuted_ids",
    "Wite.Props.c206_refuted_ranges",
    "Wite.Props.c206_refuted_hash"
   ],
   "note": "False. Only UUIDs have a hash (c206_refuted_hash); ranges, vectors and fragment strings have neither an order nor a hash (c206_refuted_ranges); ids of values with < and == but no <=> have no order (c206_refuted_ids); a point with a NaN coordinate in front is never inserted into a map that has entries, finds its first entry and erases it (c206_refuted_nan), and while it is the only key every point is found and none inserted (c206_refuted_nan_first). Proved: maps with UUIDs, indices, ids of totally ordered values and points of totally ordered coordinates work for every sequence of calls and every shape of the tree (c206_uuid_map, c206_index_map, c206_id_map, c206_point_map, c206_int_map), with floating-point coordinates as long as none is NaN (c206_float_map_partial); in general if < is a strict weak order (c206_map_partial); unordered maps of UUIDs (c206_uuid_unordered, c206_unordered_partial); exactly which types have the operators (c206_types_map). Missing: iterators, node handles and hints, multimaps."
  },
  {
   "property": "C207",
   "status": "partial",
   "theorems": [
    "Wite.Props.c207_copy",
    "Wite.Props.c207_move",
    "Wite.Props.c207_assign",
    "Wite.Props.c207_move_assign",
    "Wite.Props.c207_values_partial",
    "Wite.Props.c207_members_partial",
    "Wite.Props.c207_default",
    "Wite.Props.c207_refuted_default",
    "Wite.Props.c207_refuted_views",
    "Wite.Props.c207_refuted_collections",
    "Wite.Props.c207_moved_partial",
    "Wite.Props.c207_refuted_guards",
    "Wite.Props.c207_refuted_filled",
    "Wite.Props.c207_refuted_views_filled",
    "Wite.Props.c207_refuted_results",
    "Wite.Props.c207_refuted_view_results",
    "Wite.Props.c207_refuted_lookups",
    "Wite.Props.c207_lookups_partial",
    "Wite.Props.c207_guards_partial"
   ],
   "note": "False. Views and iterators of fragment strings cannot be assigned, nor anything in which there is one (c207_refuted_views), so results of try_make_byte_read_buffer_view cannot be assigned, swapped or transformed (c207_refuted_view_results) and vectors of views cannot be filled (c207_refuted_views_filled); collections cannot be copied (c207_refuted_collections), guards neither copied nor moved (c207_refuted_guards), nor anything in which there is one; bounded values and lookups have no default constructor (c207_refuted_default); nothing can be put into a vector of objects that can be moved but not copied (c207_refuted_filled), and most members of a result of such a value do not compile (c207_refuted_results); lookups need keys and values that can be made without arguments and assigned (c207_refuted_lookups). Proved: for every type exactly when it can be copied, moved and assigned, in terms of the types it is made of (c207_copy, c207_move, c207_assign, c207_move_assign, c207_default); what is made of types that can be copied, moved and assigned can be, to any depth (c207_values_partial), and the members compile (c207_members_partial). Missing: noexcept, constexpr and triviality; const types and references as parameters; empty arrays."
  },
  {
   "property": "C208",
   "status": "partial",
   "theorems": [
    "Wite.Props.c208_round_trip_partial",
    "Wite.Props.c208_whole",
    "Wite.Props.c208_any_bytes_partial",
    "Wite.Props.c208_read_iff",
    "Wite.Props.c208_try",
    "Wite.Props.c208_recover",
    "Wite.Props.c208_refuted_cursor",
    "Wite.Props.c208_refuted_memory",
    "Wite.Props.c208_refuted_width",
    "Wite.Props.c208_refuted_try_write",
    "Wite.Props.c208_refuted_try_cursor"
   ],
   "note": "False. When the size is there but the elements are not, the read throws with the cursor behind the size (c208_refuted_cursor), and the try_ functions leave it at the end of the buffer (c208_refuted_try_cursor); the vector has to be made before anything is checked, so a size alone makes the reader ask for as much memory as it says (c208_refuted_memory); a size stored in too few bytes is silently reduced and another vector is read (c208_refuted_width); try_write of a record that does not fit overwrites the buffer with its size (c208_refuted_try_write). Proved: the round trip for all vectors whose sizes can be stored, if there is memory (c208_round_trip_partial); a record is written whole or not at all by write (c208_whole); any bytes are read within bounds, as exactly the elements behind the size or an exception (c208_any_bytes_partial), and when which (c208_read_iff); the try_ functions do the same when they return a value (c208_try); seeking back makes the view what it was whatever happened (c208_recover). Missing: elements in endian wrappers; other containers than vectors."
  },
  {
   "property": "C209",
   "status": "partial",
   "theorems": [
    "Wite.Props.c209_strings_partial",
    "Wite.Props.c209_views_partial",
    "Wite.Props.c209_readme",
    "Wite.Props.c209_pointers",
    "Wite.Props.c209_refuted_pointers",
    "Wite.Props.c209_refuted_changed",
    "Wite.Props.c209_refuted_gone",
    "Wite.Props.c209_refuted_strings_as_views",
    "Wite.Props.c209_refuted_nul",
    "Wite.Props.c209_refuted_forms"
   ],
   "note": "False. A lookup of C strings compares addresses, so no text is found at another address (c209_pointers, c209_refuted_pointers; the README warns of this); a lookup of views finds by what the characters are now, not by what they were (c209_refuted_changed), and asking it is undefined once they are gone (c209_refuted_gone), as they are at once for strings given among views (c209_refuted_strings_as_views); a text with a NUL is not found by a pointer to it (c209_refuted_nul); some forms do not compile (c209_refuted_forms). Proved: lookups of strings find by text whatever happens to memory (c209_strings_partial), lookups of views do so as long as their texts stay what they were (c209_views_partial), so the use in the README works (c209_readme). Missing: wide text, text as keys and values at once, lookups changed through at, failing allocations of strings, what the compiler refuses in constant expressions."
  },
  {
   "property": "C210",
   "status": "proved",
   "theorems": [
    "Wite.Props.c210_containers",
    "Wite.Props.c210_map_hash",
    "Wite.Props.c210_list",
    "Wite.Props.c210_unordered",
    "Wite.Props.c210_needs_hash"
   ],
   "note": ""
  },
  {
   "property": "C211",
   "status": "proved",
   "theorems": [
    "Wite.Props.c211_write",
    "Wite.Props.c211_try_write",
    "Wite.Props.c211_read",
    "Wite.Props.c211_read_throws",
    "Wite.Props.c211_cut",
    "Wite.Props.c211_try_read",
    "Wite.Props.c211_unique",
    "Wite.Props.c211_round_trip",
    "Wite.Props.c211_streams"
   ],
   "note": ""
  },
  {
   "property": "C212",
   "status": "proved",
   "theorems": [
    "Wite.Props.c212_save",
    "Wite.Props.c212_too_small",
    "Wite.Props.c212_round_trip",
    "Wite.Props.c212_load",
    "Wite.Props.c212_defined",
    "Wite.Props.c212_again",
    "Wite.Props.c212_cut",
    "Wite.Props.c212_short_read"
   ],
   "note": ""
  },
  {
   "property": "C213",
   "status": "partial",
   "theorems": [
    "Wite.Props.c213_min_partial",
    "Wite.Props.c213_refuted_min",
    "Wite.Props.c213_minmax_partial",
    "Wite.Props.c213_refuted_minmax",
    "Wite.Props.c213_envelope_partial",
    "Wite.Props.c213_refuted_members",
    "Wite.Props.c213_ranges_partial",
    "Wite.Props.c213_refuted_ranges",
    "Wite.Props.c213_unordered",
    "Wite.Props.c213_agrees"
   ],
   "note": "False: where std is an associated namespace of the type (std::byte, std::string, chrono durations, pointers to them), min and max of four or more plain values, minmax and envelope of three or more values, and every envelope of ranges fail to compile, because the unqualified calls inside find std::min (c213_refuted_min, _minmax, _ranges); envelope of values with members min() and max(), as durations, never compiles (c213_refuted_members). Proved: exactly which calls compile, for types without min(), max() and value_type together and for value ranges."
  },
  {
   "property": "C214",
   "status": "partial",
   "theorems": [
    "Wite.Props.c214_uniform",
    "Wite.Props.c214_sequences",
    "Wite.Props.c214_same",
    "Wite.Props.c214_draws",
    "Wite.Props.c214_refuted_threads",
    "Wite.Props.c214_refuted_first"
   ],
   "note": "False of make_uuid: the engine of a thread is seeded with 32 bits, so at most 2^32 of the 2^122 UUIDs can come first in a thread (c214_refuted_first), and of any 2^32 + 1 threads two get the same UUIDs for ever (c214_refuted_threads). Proved for uuid{engine}: exactly 64 of the 2^128 draws make each UUID, 64^n of 2^(128 n) each sequence of n, and UUIDs made one after the other use different results of the engine. Engines whose range is not all numbers of w bits with w dividing 64 are not modelled."
  },
  {
   "property": "C215",
   "status": "partial",
   "theorems": [
    "Wite.Props.c215_queue_partial",
    "Wite.Props.c215_exceptions_partial",
    "Wite.Props.c215_refuted_early",
    "Wite.Props.c215_refuted_rest",
    "Wite.Props.c215_recover_partial",
    "Wite.Props.c215_refuted_text",
    "Wite.Props.c215_refuted_file",
    "Wite.Props.c215_records_partial",
    "Wite.Props.c215_refuted_gap",
    "Wite.Props.c215_file_gap"
   ],
   "note": "False. Reading and writing share one state: after a read that comes too early, everything written is lost and everything read is zero until clear() is called, and nothing reports it (c215_refuted_early); after clear() alone the bytes that were there are lost (c215_refuted_rest). A string stream made with a text is written over from its beginning (c215_refuted_text), one positioned behind its end loses what is written (c215_refuted_gap), and in a file reading directly after writing, or the reverse, is undefined (c215_refuted_file). Proved: a string stream is a queue of values as long as every value is read after it is written (c215_queue_partial); with exceptions on failbit it is a queue of bytes or throws (c215_exceptions_partial); clear() and seekg undo an early read (c215_recover_partial); strings and files positioned before each call are arrays of records (c215_records_partial), files grow with zeros (c215_file_gap)."
  },
  {
   "property": "C216",
   "status": "partial",
   "theorems": [
    "Wite.Props.c216_construct_partial",
    "Wite.Props.c216_make_partial",
    "Wite.Props.c216_refuted_terminate",
    "Wite.Props.c216_refuted_copies",
    "Wite.Props.c216_at_partial",
    "Wite.Props.c216_with_partial"
   ],
   "note": "False of making lookups: the constructor, _init and make_static_lookup are noexcept, so every exception after the caller's own copies ends the program (c216_refuted_terminate), and because each call of _init copies all remaining mappings, n mappings are copied n + n (n + 1) / 2 times (c216_refuted_copies). Proved: exactly which operations are performed in which order and what the exception of each leads to (c216_construct_partial, c216_make_partial); at and with compare in order and stop at the first that is equal, and their exceptions reach the caller (c216_at_partial, c216_with_partial)."
  },
  {
   "property": "C217",
   "status": "partial",
   "theorems": [
    "Wite.Props.c217_prefix",
    "Wite.Props.c217_room_partial",
    "Wite.Props.c217_flush_partial",
    "Wite.Props.c217_refuted",
    "Wite.Props.c217_refuted_which",
    "Wite.Props.c217_unit_partial",
    "Wite.Props.c217_refuted_unit",
    "Wite.Props.c217_unbuffered"
   ],
   "note": "False for every stream that keeps bytes in a buffer: write reports success and the bytes are lost in the destructor (c217_refuted, for every value and every policy that keeps a byte of it), the error is reported by a later write than the one whose bytes are missing (c217_refuted_which), and with unitbuf an error that is found when the stream is synchronised is never thrown (c217_refuted_unit). Proved for every policy: the file always holds the beginning of what was written (c217_prefix); everything arrives if the device has room (c217_room_partial); flush and close leave a good stream good exactly if everything is in the file (c217_flush_partial); with unitbuf the stream is good exactly if everything is in the file (c217_unit_partial); without a buffer everything is as C145 has it (c217_unbuffered)."
  },
  {
   "property": "C218",
   "status": "partial",
   "theorems": [
    "Wite.Props.c218_rename_partial",
    "Wite.Props.c218_rename_whole_partial",
    "Wite.Props.c218_quiet_partial",
    "Wite.Props.c218_write_partial",
    "Wite.Props.c218_refuted_empty",
    "Wite.Props.c218_refuted_torn",
    "Wite.Props.c218_refuted_killed",
    "Wite.Props.c218_refuted_two",
    "Wite.Props.c218_refuted_short",
    "Wite.Props.c218_bytes_partial",
    "Wite.Props.c218_growing_partial"
   ],
   "note": "False of write to the path itself, for all old and new bytes: a read after the file was emptied succeeds and gives nothing (c218_refuted_empty), a read during a replacement gives old bytes up to any place and new ones, or zeros, behind it (c218_refuted_torn), a killed process leaves a part of the new bytes and nothing of the old ones (c218_refuted_killed), and of two processes both are told of success while the file holds a mixture (c218_refuted_two). Proved for processes that write to another name and rename: each call gives what was in the file when it was opened, whatever all processes do (c218_rename_partial), and that is always all of the old bytes or all of some write (c218_rename_whole_partial), unless a device is full, which write does not report (c218_refuted_short). Proved for write to the path itself: calls during which nobody writes give the content (c218_quiet_partial), undisturbed writes arrive whole (c218_write_partial), and every byte ever seen is zero or comes from the same place of the old bytes or of some write (c218_bytes_partial; c218_growing_partial for files that only grow). Missing: files removed or renamed while they are open, and handles used for more than one call."
  },
  {
   "property": "C219",
   "status": "proved",
   "theorems": [
    "Wite.Props.c219_race",
    "Wite.Props.c219_alone",
    "Wite.Props.c219_finish",
    "Wite.Props.c219_overlap"
   ],
   "note": ""
  },
  {
   "property": "C220",
   "status": "partial",
   "theorems": [
    "Wite.Props.c220_text_partial",
    "Wite.Props.c220_keep_partial",
    "Wite.Props.c220_partial",
    "Wite.Props.c220_refuted_empty",
    "Wite.Props.c220_refuted_cell",
    "Wite.Props.c220_drop_partial",
    "Wite.Props.c220_strip_partial",
    "Wite.Props.c220_refuted_drop"
   ],
   "note": "False of every table with an empty list in it, whose text is that of another table too (c220_refuted_empty), of every table with a delimiter in a cell (c220_refuted_cell), and with the default behaviour of split of every table with a part that looks like an empty text (c220_refuted_drop). Proved: writing always gives the text meant (c220_text_partial); the exact table that comes back with keep_empty (c220_keep_partial) and with drop_empty (c220_drop_partial); the same table if no list is empty and no cell contains a delimiter (c220_partial), also with whitespace around the cells and strip (c220_strip_partial). Missing: delimiters that are used for more than one level, and characters for which isspace is undefined (C08)."
  },
  {
   "property": "C221",
   "status": "partial",
   "theorems": [
    "Wite.Props.c221_partial",
    "Wite.Props.c221_back_partial",
    "Wite.Props.c221_refuted"
   ],
   "note": "False: in every range of 49 the number after the first comes back as the first (c221_refuted). Proved for ends at most 2^52 apart (c221_partial): x or x - 1 comes back, never anything below a, and x itself if x is an end or b - a is a power of two. For all fractions in [0, 1] the way back is less than two steps off (c221_back_partial). Missing: wider ranges, an exact description of the numbers that do not come back."
  }
 ]
}