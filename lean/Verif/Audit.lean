import Verif.Props.Algorithms
import Verif.Props.AnyAlgorithm
import Verif.Props.Archive
import Verif.Props.Assert
import Verif.Props.Checks
import Verif.Props.CollIter
import Verif.Props.CollectionAlias
import Verif.Props.CollectionCalls
import Verif.Props.CollectionDict
import Verif.Props.CollectionIds
import Verif.Props.CollectionMove
import Verif.Props.CollectionThrow
import Verif.Props.Compose
import Verif.Props.Config
import Verif.Props.ConstEval
import Verif.Props.DerefIterator
import Verif.Props.EndianOverride
import Verif.Props.Exchange
import Verif.Props.FileNames
import Verif.Props.FileShared
import Verif.Props.FloatMaths
import Verif.Props.FractionInverse
import Verif.Props.FragmentCalls
import Verif.Props.FragmentEmpty
import Verif.Props.FragmentFind
import Verif.Props.FragmentIters
import Verif.Props.FragmentLive
import Verif.Props.FragmentSearch
import Verif.Props.FragmentString
import Verif.Props.FragmentTwo
import Verif.Props.Hex
import Verif.Props.HexWide
import Verif.Props.Index
import Verif.Props.Initial
import Verif.Props.Io
import Verif.Props.IoAccess
import Verif.Props.IoAlias
import Verif.Props.IoAlloc
import Verif.Props.IoBoth
import Verif.Props.IoBuffered
import Verif.Props.IoCalls
import Verif.Props.IoFile
import Verif.Props.IoLayout
import Verif.Props.IoNested
import Verif.Props.IoPodRange
import Verif.Props.IoRecords
import Verif.Props.IoStdio
import Verif.Props.IoStream
import Verif.Props.IoThreads
import Verif.Props.IoValues
import Verif.Props.IoView
import Verif.Props.IoViewLive
import Verif.Props.IoWide
import Verif.Props.ItemCollection
import Verif.Props.IterTyping
import Verif.Props.Keys
import Verif.Props.LongDouble
import Verif.Props.LookupCalls
import Verif.Props.LookupText
import Verif.Props.LookupThrow
import Verif.Props.Numeric
import Verif.Props.NumericCalls
import Verif.Props.NumericRef
import Verif.Props.OStream
import Verif.Props.OStreamFail
import Verif.Props.OutputLookup
import Verif.Props.Overload
import Verif.Props.Point
import Verif.Props.PointCalls
import Verif.Props.RangeCalls
import Verif.Props.RangeEq
import Verif.Props.RangeFlt
import Verif.Props.RangeKinds
import Verif.Props.RangeSize
import Verif.Props.RangeThrow
import Verif.Props.RangeThrowArith
import Verif.Props.Result
import Verif.Props.ResultCalls
import Verif.Props.ResultThrow
import Verif.Props.ReverseIter
import Verif.Props.Scope
import Verif.Props.ScopeUndo
import Verif.Props.SplitInto
import Verif.Props.SplitViews
import Verif.Props.StaticLookup
import Verif.Props.StaticVector
import Verif.Props.StaticVectorHandOver
import Verif.Props.StaticVectorObjs
import Verif.Props.StaticVectorThrow
import Verif.Props.StringCalls
import Verif.Props.StringMem
import Verif.Props.Strings
import Verif.Props.TextTable
import Verif.Props.TypedIds
import Verif.Props.Uuid
import Verif.Props.UuidDefault
import Verif.Props.UuidEngine
import Verif.Props.UuidExact
import Verif.Props.UuidFormats
import Verif.Props.UuidMore
import Verif.Props.UuidOrder
import Verif.Props.UuidThreads
import Verif.Props.ValueRange
import Verif.Props.ValueTypes

/-!
# Axioms of every property theorem

Generated by tools/gen.py; building this file prints the axioms each theorem depends on.
-/

#print axioms Wite.Props.c01_split_then_join
#print axioms Wite.Props.c02_keep_empty_decomposition
#print axioms Wite.Props.c02_keep_empty_count
#print axioms Wite.Props.c02_keep_empty_unique
#print axioms Wite.Props.c03_drop_empty_filters
#print axioms Wite.Props.c03_drop_empty_no_empty
#print axioms Wite.Props.c04_join_result
#print axioms Wite.Props.c04_join_length
#print axioms Wite.Props.c05_join_then_split
#print axioms Wite.Props.c06_trim_left_exact
#print axioms Wite.Props.c06_trim_right_exact
#print axioms Wite.Props.c06_strip_exact
#print axioms Wite.Props.c06_trims_return
#print axioms Wite.Props.c06_strip_all_whitespace
#print axioms Wite.Props.c07_trim_left_idempotent
#print axioms Wite.Props.c07_trim_right_idempotent
#print axioms Wite.Props.c07_strip_idempotent
#print axioms Wite.Props.c07_strip_is_left_of_right
#print axioms Wite.Props.c07_strip_is_right_of_left
#print axioms Wite.Props.c08_refuted_trim_of_non_ascii
#print axioms Wite.Props.c08_trim_of_ascii_partial
#print axioms Wite.Props.c08_c_locale_partial
#print axioms Wite.Props.c08_trim_left_undefined_iff
#print axioms Wite.Props.c09_hexlify_text
#print axioms Wite.Props.c09_unhexlify_hexlify
#print axioms Wite.Props.c10_hexlify_unhexlify
#print axioms Wite.Props.c11_unhexlify_exact_partial
#print axioms Wite.Props.c11_unhexlify_even_partial
#print axioms Wite.Props.c11_refuted_odd_length_accepted
#print axioms Wite.Props.c12_from_hex_chars_accepts
#print axioms Wite.Props.c12_from_hex_chars_errors
#print axioms Wite.Props.c12_from_hex_chars_value
#print axioms Wite.Props.c13_try_from_hex_chars_agrees
#print axioms Wite.Props.c14_unhexlify_n_accepts
#print axioms Wite.Props.c14_unhexlify_n_value
#print axioms Wite.Props.c14_try_unhexlify_n_agrees
#print axioms Wite.Props.c14_unhexlify_n_is_unhexlify
#print axioms Wite.Props.c15_integer_round_trip
#print axioms Wite.Props.c15_integer_round_trip_big_endian
#print axioms Wite.Props.c16_round_trip
#print axioms Wite.Props.c16_round_trip_mixed
#print axioms Wite.Props.c17_text
#print axioms Wite.Props.c17_length
#print axioms Wite.Props.c17_unknown
#print axioms Wite.Props.c18_fields
#print axioms Wite.Props.c18_fixed_is_value
#print axioms Wite.Props.c19_parse
#print axioms Wite.Props.c19_shape_meaning
#print axioms Wite.Props.c19_unknown
#print axioms Wite.Props.c20_case
#print axioms Wite.Props.c21_try_make_agrees
#print axioms Wite.Props.c22_refuted_overrun
#print axioms Wite.Props.c22_refuted_read_past_end
#print axioms Wite.Props.c22_safe_partial
#print axioms Wite.Props.c22_wrong_length_partial
#print axioms Wite.Props.c22_undefined_partial
#print axioms Wite.Props.c22_undefined_iff_partial
#print axioms Wite.Props.c23_to_c_str
#print axioms Wite.Props.c23_unknown
#print axioms Wite.Props.c23_no_overrun
#print axioms Wite.Props.c24_version_variant
#print axioms Wite.Props.c24_all_reachable
#print axioms Wite.Props.c25_refuted
#print axioms Wite.Props.c25_positions_partial
#print axioms Wite.Props.c26_lexicographic
#print axioms Wite.Props.c26_equality
#print axioms Wite.Props.c26_total_order
#print axioms Wite.Props.c27_hash_value
#print axioms Wite.Props.c27_both_halves
#print axioms Wite.Props.c27_identity_hash
#print axioms Wite.Props.c28_injective
#print axioms Wite.Props.c28_formats
#print axioms Wite.Props.c29_write_then_read
#print axioms Wite.Props.c29_write_at_then_read_at
#print axioms Wite.Props.c30_endian_bytes
#print axioms Wite.Props.c30_endian_read
#print axioms Wite.Props.c30_runtime_endian
#print axioms Wite.Props.c31_write_frame
#print axioms Wite.Props.c32_read
#print axioms Wite.Props.c33_write_at
#print axioms Wite.Props.c33_read_at
#print axioms Wite.Props.c34_try_read_agrees
#print axioms Wite.Props.c34_try_read_at_agrees
#print axioms Wite.Props.c35_multi_try_read
#print axioms Wite.Props.c35_prefix_as_read
#print axioms Wite.Props.c36_multi_try_read_at_partial
#print axioms Wite.Props.c36_every_position_partial
#print axioms Wite.Props.c36_refuted_position_wraps
#print axioms Wite.Props.c37_try_write_agrees
#print axioms Wite.Props.c37_failed_try_write
#print axioms Wite.Props.c38_try_write_at_agrees
#print axioms Wite.Props.c38_multi_try_write_at_agrees
#print axioms Wite.Props.c39_to_bytes
#print axioms Wite.Props.c39_from_to_bytes
#print axioms Wite.Props.c39_to_from_bytes
#print axioms Wite.Props.c40_range_round_trip
#print axioms Wite.Props.c40_range_insufficient
#print axioms Wite.Props.c40_range_at
#print axioms Wite.Props.c41_read_view_cursor
#print axioms Wite.Props.c41_write_view_cursor
#print axioms Wite.Props.c42_read_view
#print axioms Wite.Props.c42_read_view_range
#print axioms Wite.Props.c42_read_view_endian
#print axioms Wite.Props.c42_seek
#print axioms Wite.Props.c42_write_view
#print axioms Wite.Props.c42_write_view_endian
#print axioms Wite.Props.c43_writes_then_reads
#print axioms Wite.Props.c43_writes_succeed_iff
#print axioms Wite.Props.c44_view_try_read
#print axioms Wite.Props.c45_stream_round_trip
#print axioms Wite.Props.c45_stream_fifo
#print axioms Wite.Props.c46_write_then_read
#print axioms Wite.Props.c46_write_count
#print axioms Wite.Props.c46_unopenable
#print axioms Wite.Props.c47_read_prefix
#print axioms Wite.Props.c47_missing_file
#print axioms Wite.Props.c48_refuted_short_write
#print axioms Wite.Props.c48_try_write_success_partial
#print axioms Wite.Props.c49_refuted_count_beyond_buffer
#print axioms Wite.Props.c49_no_over_read_partial
#print axioms Wite.Props.c49_over_read_iff_partial
#print axioms Wite.Props.c50_history
#print axioms Wite.Props.c50_tame
#print axioms Wite.Props.c50_emplace_throw
#print axioms Wite.Props.c50_transform_throw
#print axioms Wite.Props.c51_and_then_value
#print axioms Wite.Props.c51_and_then_error
#print axioms Wite.Props.c51_or_else_error
#print axioms Wite.Props.c51_or_else_value
#print axioms Wite.Props.c51_transform
#print axioms Wite.Props.c51_transform_error
#print axioms Wite.Props.c51_and_then_id
#print axioms Wite.Props.c51_or_else_id
#print axioms Wite.Props.c51_and_then_chain
#print axioms Wite.Props.c51_or_else_chain
#print axioms Wite.Props.c51_and_then_compose
#print axioms Wite.Props.c51_value_or
#print axioms Wite.Props.c52_discipline
#print axioms Wite.Props.c52_discipline_terminated
#print axioms Wite.Props.c52_exactly_once
#print axioms Wite.Props.c52_identified
#print axioms Wite.Props.c52_function_runs
#print axioms Wite.Props.c52_release
#print axioms Wite.Props.c52_throwing_function
#print axioms Wite.Props.c53_refuted_success
#print axioms Wite.Props.c53_refuted_fail
#print axioms Wite.Props.c53_refuted_everywhere
#print axioms Wite.Props.c53_refuted
#print axioms Wite.Props.c53_plain_partial
#print axioms Wite.Props.c53_every_program_partial
#print axioms Wite.Props.c53_rule_documented_partial
#print axioms Wite.Props.c54_refuted
#print axioms Wite.Props.c54_refuted_copy
#print axioms Wite.Props.c54_assigned_partial
#print axioms Wite.Props.c54_released_partial
#print axioms Wite.Props.c55_add_exact
#print axioms Wite.Props.c55_sub_exact
#print axioms Wite.Props.c55_add_sub_release
#print axioms Wite.Props.c55_add_sub_debug
#print axioms Wite.Props.c55_inc_dec
#print axioms Wite.Props.c55_inc_dec_exact
#print axioms Wite.Props.c55_order
#print axioms Wite.Props.c56_add
#print axioms Wite.Props.c56_sub
#print axioms Wite.Props.c56_inc_dec
#print axioms Wite.Props.c56_release
#print axioms Wite.Props.c56_most_negative
#print axioms Wite.Props.c57_compare
#print axioms Wite.Props.c57_total
#print axioms Wite.Props.c57_value
#print axioms Wite.Props.c58_list
#print axioms Wite.Props.c58_unchanged
#print axioms Wite.Props.c59_refuted_capacity
#print axioms Wite.Props.c59_refuted_live
#print axioms Wite.Props.c59_other_constructors_partial
#print axioms Wite.Props.c60_at
#print axioms Wite.Props.c60_front_back
#print axioms Wite.Props.c60_returns
#print axioms Wite.Props.c61_equal_shown
#print axioms Wite.Props.c61_equal
#print axioms Wite.Props.c62_refuted_clear
#print axioms Wite.Props.c62_refuted_example
#print axioms Wite.Props.c62_resize_partial
#print axioms Wite.Props.c63_list
#print axioms Wite.Props.c63_unique
#print axioms Wite.Props.c64_ownership
#print axioms Wite.Props.c64_clear
#print axioms Wite.Props.c64_no_leak
#print axioms Wite.Props.c65_single_partial
#print axioms Wite.Props.c65_flags_partial
#print axioms Wite.Props.c65_variadic_partial
#print axioms Wite.Props.c65_refuted_range
#print axioms Wite.Props.c66_refuted_change_id
#print axioms Wite.Props.c66_refuted_excise
#print axioms Wite.Props.c66_refuted_dangling
#print axioms Wite.Props.c66_keep_id_partial
#print axioms Wite.Props.c67_failures
#print axioms Wite.Props.c68_make
#print axioms Wite.Props.c68_at
#print axioms Wite.Props.c68_with
#print axioms Wite.Props.c68_inverse
#print axioms Wite.Props.c68_assign
#print axioms Wite.Props.c69_order
#print axioms Wite.Props.c69_reserve_anywhere
#print axioms Wite.Props.c69_throws
#print axioms Wite.Props.c70_release
#print axioms Wite.Props.c70_laws
#print axioms Wite.Props.c70_increments
#print axioms Wite.Props.c70_steps
#print axioms Wite.Props.c70_loop
#print axioms Wite.Props.c70_refuted_end
#print axioms Wite.Props.c70_debug_partial
#print axioms Wite.Props.c70_debug_reports
#print axioms Wite.Props.c70_equal
#print axioms Wite.Props.c70_subscript
#print axioms Wite.Props.c71_get_set
#print axioms Wite.Props.c71_set_laws
#print axioms Wite.Props.c71_construct
#print axioms Wite.Props.c71_out_of_range
#print axioms Wite.Props.c71_lexicographic
#print axioms Wite.Props.c71_total_order
#print axioms Wite.Props.c71_equal
#print axioms Wite.Props.c71_int
#print axioms Wite.Props.c72_partial
#print axioms Wite.Props.c72_refuted
#print axioms Wite.Props.c72_default
#print axioms Wite.Props.c73_int_next
#print axioms Wite.Props.c73_int_prev
#print axioms Wite.Props.c73_int_round
#print axioms Wite.Props.c73_int_extreme
#print axioms Wite.Props.c73_flt_next
#print axioms Wite.Props.c73_flt_prev_partial
#print axioms Wite.Props.c73_refuted_prev
#print axioms Wite.Props.c73_flt_round_partial
#print axioms Wite.Props.c74_min
#print axioms Wite.Props.c74_max
#print axioms Wite.Props.c74_minmax
#print axioms Wite.Props.c74_order
#print axioms Wite.Props.c74_ties
#print axioms Wite.Props.c75_fraction_interpolate
#print axioms Wite.Props.c75_interpolate_fraction
#print axioms Wite.Props.c75_ends_mono
#print axioms Wite.Props.c76_float
#print axioms Wite.Props.c76_refuted_int
#print axioms Wite.Props.c77_floor
#print axioms Wite.Props.c77_ends
#print axioms Wite.Props.c77_overflow
#print axioms Wite.Props.c78_contains
#print axioms Wite.Props.c78_exactly_one
#print axioms Wite.Props.c78_empty_open
#print axioms Wite.Props.c79_values
#print axioms Wite.Props.c79_none_partial
#print axioms Wite.Props.c79_refuted_open
#print axioms Wite.Props.c79_algebra
#print axioms Wite.Props.c80_clamp
#print axioms Wite.Props.c80_contained_partial
#print axioms Wite.Props.c80_refuted_open
#print axioms Wite.Props.c80_idempotent_monotone
#print axioms Wite.Props.c80_bounded
#print axioms Wite.Props.c80_inverted
#print axioms Wite.Props.c81_closed_partial
#print axioms Wite.Props.c81_effect
#print axioms Wite.Props.c81_inner_partial
#print axioms Wite.Props.c81_signed_partial
#print axioms Wite.Props.c81_refuted_min
#print axioms Wite.Props.c81_refuted_max
#print axioms Wite.Props.c82_mid_partial
#print axioms Wite.Props.c82_unsigned_partial
#print axioms Wite.Props.c82_refuted
#print axioms Wite.Props.c83_values
#print axioms Wite.Props.c83_range
#print axioms Wite.Props.c83_ranges
#print axioms Wite.Props.c84_int
#print axioms Wite.Props.c84_flt_partial
#print axioms Wite.Props.c84_refuted
#print axioms Wite.Props.c85_partial
#print axioms Wite.Props.c85_refuted_general
#print axioms Wite.Props.c85_refuted
#print axioms Wite.Props.c86_partial
#print axioms Wite.Props.c86_size
#print axioms Wite.Props.c86_beyond_end
#print axioms Wite.Props.c86_steps_outside
#print axioms Wite.Props.c86_before_begin
#print axioms Wite.Props.c86_refuted
#print axioms Wite.Props.c87_index_partial
#print axioms Wite.Props.c87_at_throws
#print axioms Wite.Props.c87_ends_partial
#print axioms Wite.Props.c87_ends_empty
#print axioms Wite.Props.c87_position_partial
#print axioms Wite.Props.c87_refuted_position
#print axioms Wite.Props.c87_refuted
#print axioms Wite.Props.c88_partial
#print axioms Wite.Props.c88_ptr_partial
#print axioms Wite.Props.c88_refuted
#print axioms Wite.Props.c89_starts_partial
#print axioms Wite.Props.c89_ends_partial
#print axioms Wite.Props.c89_refuted
#print axioms Wite.Props.c89_pointer_partial
#print axioms Wite.Props.c90_char
#print axioms Wite.Props.c90_view_partial
#print axioms Wite.Props.c90_fragment_partial
#print axioms Wite.Props.c90_refuted_self
#print axioms Wite.Props.c90_refuted
#print axioms Wite.Props.c90_pointer_partial
#print axioms Wite.Props.c91_default
#print axioms Wite.Props.c91_partial
#print axioms Wite.Props.c91_outside
#print axioms Wite.Props.c91_refuted
#print axioms Wite.Props.c91_refuted_all
#print axioms Wite.Props.c92_partial
#print axioms Wite.Props.c92_refuted_end
#print axioms Wite.Props.c92_refuted_wrap
#print axioms Wite.Props.c92_refuted
#print axioms Wite.Props.c93_substr_partial
#print axioms Wite.Props.c93_copy_partial
#print axioms Wite.Props.c93_refuted
#print axioms Wite.Props.c94_length_print
#print axioms Wite.Props.c94_partial
#print axioms Wite.Props.c94_refuted
#print axioms Wite.Props.c94_assoc
#print axioms Wite.Props.c95_split_null
#print axioms Wite.Props.c95_split_c_string
#print axioms Wite.Props.c95_split_unterminated
#print axioms Wite.Props.c96_to_integer_is_unsigned_value
#print axioms Wite.Props.c97_read_result_partial
#print axioms Wite.Props.c97_refuted_short_read
#print axioms Wite.Props.c98_try_seek
#print axioms Wite.Props.c98_make_at
#print axioms Wite.Props.c98_try_read_range
#print axioms Wite.Props.c98_try_write
#print axioms Wite.Props.c99_refuted_wide
#print axioms Wite.Props.c99_defined_partial
#print axioms Wite.Props.c99_wrong_length_partial
#print axioms Wite.Props.c99_undefined_iff_partial
#print axioms Wite.Props.c99_accepted_iff_partial
#print axioms Wite.Props.c100_refuted_reads_behind
#print axioms Wite.Props.c100_contents_irrelevant_partial
#print axioms Wite.Props.c101_refuted_garbage
#print axioms Wite.Props.c101_accepts_partial
#print axioms Wite.Props.c101_accepted_partial
#print axioms Wite.Props.c101_accepted_iff_partial
#print axioms Wite.Props.c101_rejected_iff_partial
#print axioms Wite.Props.c102_refuted_equal_halves
#print axioms Wite.Props.c102_refuted_swapped_halves
#print axioms Wite.Props.c102_collisions_partial
#print axioms Wite.Props.c103_refuted_vector
#print axioms Wite.Props.c103_refuted_every
#print axioms Wite.Props.c103_item_node_partial
#print axioms Wite.Props.c104_mono_partial
#print axioms Wite.Props.c104_zero_partial
#print axioms Wite.Props.c104_lower_partial
#print axioms Wite.Props.c104_upper_partial
#print axioms Wite.Props.c104_finite_partial
#print axioms Wite.Props.c104_near_partial
#print axioms Wite.Props.c104_refuted_infinite
#print axioms Wite.Props.c104_refuted_upper
#print axioms Wite.Props.c104_refuted_below
#print axioms Wite.Props.c104_infinite
#print axioms Wite.Props.c105_float
#print axioms Wite.Props.c105_float_ends
#print axioms Wite.Props.c105_float_mono
#print axioms Wite.Props.c105_int
#print axioms Wite.Props.c105_range_flt
#print axioms Wite.Props.c105_range_int
#print axioms Wite.Props.c106_partial
#print axioms Wite.Props.c106_near_partial
#print axioms Wite.Props.c106_refuted
#print axioms Wite.Props.c106_refuted_wide
#print axioms Wite.Props.c106_nonfinite
#print axioms Wite.Props.c107_partial
#print axioms Wite.Props.c107_refuted
#print axioms Wite.Props.c108_partial
#print axioms Wite.Props.c108_refuted
#print axioms Wite.Props.c108_nonfinite
#print axioms Wite.Props.c108_int_truncated
#print axioms Wite.Props.c109_partial
#print axioms Wite.Props.c109_refuted_nan
#print axioms Wite.Props.c109_refuted_open
#print axioms Wite.Props.c109_refuted_open_everywhere
#print axioms Wite.Props.c110_operators
#print axioms Wite.Props.c110_partial_order
#print axioms Wite.Props.c110_total
#print axioms Wite.Props.c110_nan
#print axioms Wite.Props.c111_point
#print axioms Wite.Props.c111_point_injective
#print axioms Wite.Props.c111_point_uninit
#print axioms Wite.Props.c111_range
#print axioms Wite.Props.c112_partial
#print axioms Wite.Props.c112_refuted
#print axioms Wite.Props.c112_refuted_all
#print axioms Wite.Props.c113_partial
#print axioms Wite.Props.c113_refuted
#print axioms Wite.Props.c114_partial
#print axioms Wite.Props.c114_exact_partial
#print axioms Wite.Props.c114_refuted
#print axioms Wite.Props.c115_c_string_partial
#print axioms Wite.Props.c115_unterminated
#print axioms Wite.Props.c115_refuted_null
#print axioms Wite.Props.c116_undefined_iff
#print axioms Wite.Props.c116_bytes
#print axioms Wite.Props.c116_agrees
#print axioms Wite.Props.c116_invalid_not_visible
#print axioms Wite.Props.c117_wide_is_narrow
#print axioms Wite.Props.c117_accepts
#print axioms Wite.Props.c117_table
#print axioms Wite.Props.c118_refuted_reachable
#print axioms Wite.Props.c118_refuted_threads
#print axioms Wite.Props.c118_partial
#print axioms Wite.Props.c119_refuted_aliasing
#print axioms Wite.Props.c119_text_partial
#print axioms Wite.Props.c119_refuted
#print axioms Wite.Props.c119_partial
#print axioms Wite.Props.c120_text
#print axioms Wite.Props.c120_partial
#print axioms Wite.Props.c120_refuted
#print axioms Wite.Props.c121_insert
#print axioms Wite.Props.c121_injective
#print axioms Wite.Props.c121_read_back
#print axioms Wite.Props.c121_id
#print axioms Wite.Props.c122_digits
#print axioms Wite.Props.c122_letters
#print axioms Wite.Props.c122_layout
#print axioms Wite.Props.c122_decimal
#print axioms Wite.Props.c122_injective_partial
#print axioms Wite.Props.c122_refuted_fill
#print axioms Wite.Props.c123_point
#print axioms Wite.Props.c123_range
#print axioms Wite.Props.c123_partial
#print axioms Wite.Props.c123_refuted
#print axioms Wite.Props.c124_loop
#print axioms Wite.Props.c124_loop_collection
#print axioms Wite.Props.c124_steps
#print axioms Wite.Props.c124_arithmetic
#print axioms Wite.Props.c124_subscript
#print axioms Wite.Props.c124_refuted
#print axioms Wite.Props.c124_refuted_base
#print axioms Wite.Props.c124_debug_partial
#print axioms Wite.Props.c125_same_element
#print axioms Wite.Props.c125_release
#print axioms Wite.Props.c125_refuted
#print axioms Wite.Props.c125_refuted_loop
#print axioms Wite.Props.c125_debug_partial
#print axioms Wite.Props.c126_unchanged
#print axioms Wite.Props.c126_returns
#print axioms Wite.Props.c126_refuted_live
#print axioms Wite.Props.c126_refuted_shrink
#print axioms Wite.Props.c127_assigned
#print axioms Wite.Props.c127_refuted
#print axioms Wite.Props.c127_partial
#print axioms Wite.Props.c128_partial
#print axioms Wite.Props.c128_only_copy
#print axioms Wite.Props.c128_refuted
#print axioms Wite.Props.c128_refuted_value
#print axioms Wite.Props.c129_returns
#print axioms Wite.Props.c129_others
#print axioms Wite.Props.c129_partial
#print axioms Wite.Props.c129_survives
#print axioms Wite.Props.c129_refuted_moves
#print axioms Wite.Props.c129_refuted_emplace
#print axioms Wite.Props.c129_refuted_torn
#print axioms Wite.Props.c130_lists
#print axioms Wite.Props.c130_ownership
#print axioms Wite.Props.c130_addresses
#print axioms Wite.Props.c131_obtained
#print axioms Wite.Props.c131_follows
#print axioms Wite.Props.c131_shows
#print axioms Wite.Props.c131_loop
#print axioms Wite.Props.c131_equal
#print axioms Wite.Props.c131_partial
#print axioms Wite.Props.c131_refuted
#print axioms Wite.Props.c132_refuted_read
#print axioms Wite.Props.c132_refuted_try_read
#print axioms Wite.Props.c132_refuted_range
#print axioms Wite.Props.c132_partial
#print axioms Wite.Props.c132_at_partial
#print axioms Wite.Props.c133_read_partial
#print axioms Wite.Props.c133_round_trip_partial
#print axioms Wite.Props.c133_refuted_next
#print axioms Wite.Props.c133_refuted_overlap
#print axioms Wite.Props.c133_refuted_round_trip
#print axioms Wite.Props.c133_refuted_to_bytes
#print axioms Wite.Props.c133_refuted_from_to_bytes
#print axioms Wite.Props.c134_as_usual_partial
#print axioms Wite.Props.c134_refused_partial
#print axioms Wite.Props.c134_one_partial
#print axioms Wite.Props.c134_refuted_terminate
#print axioms Wite.Props.c134_refuted_torn
#print axioms Wite.Props.c134_try_write_partial
#print axioms Wite.Props.c134_refuted_try_write
#print axioms Wite.Props.c134_refuted_read_range
#print axioms Wite.Props.c134_refuted_try_read_range
#print axioms Wite.Props.c134_empty_range_partial
#print axioms Wite.Props.c135_others_partial
#print axioms Wite.Props.c135_read_partial
#print axioms Wite.Props.c135_read_iff_partial
#print axioms Wite.Props.c135_refuted_leak
#print axioms Wite.Props.c135_refuted_exhausted
#print axioms Wite.Props.c136_partial
#print axioms Wite.Props.c136_refuted_large_throws
#print axioms Wite.Props.c136_refuted_large_empty
#print axioms Wite.Props.c136_refuted_pipe
#print axioms Wite.Props.c136_pipe_partial
#print axioms Wite.Props.c136_refuted_short_pipe
#print axioms Wite.Props.c137_write_partial
#print axioms Wite.Props.c137_round_trip_partial
#print axioms Wite.Props.c137_refuted_write
#print axioms Wite.Props.c137_refuted_read
#print axioms Wite.Props.c137_refuted_shrunk
#print axioms Wite.Props.c137_refuted_round_trip
#print axioms Wite.Props.c138_refuted_write
#print axioms Wite.Props.c138_refuted_read
#print axioms Wite.Props.c138_partial
#print axioms Wite.Props.c139_file_size_partial
#print axioms Wite.Props.c139_refuted_file_size
#print axioms Wite.Props.c139_refuted_unseekable
#print axioms Wite.Props.c139_reads_partial
#print axioms Wite.Props.c139_write_at_partial
#print axioms Wite.Props.c139_writes_partial
#print axioms Wite.Props.c140_refuted_write
#print axioms Wite.Props.c140_refuted_read
#print axioms Wite.Props.c140_read_partial
#print axioms Wite.Props.c141_immediate_partial
#print axioms Wite.Props.c141_values_partial
#print axioms Wite.Props.c141_refuted_assigned
#print axioms Wite.Props.c141_refuted_temporaries
#print axioms Wite.Props.c141_variables_partial
#print axioms Wite.Props.c141_min_max_partial
#print axioms Wite.Props.c141_refuted_min_max
#print axioms Wite.Props.c141_accepted_partial
#print axioms Wite.Props.c142_refuted_nan
#print axioms Wite.Props.c142_refuted_forms
#print axioms Wite.Props.c142_refuted_ignored
#print axioms Wite.Props.c142_refuted_zeros
#print axioms Wite.Props.c142_partial
#print axioms Wite.Props.c143_refuted_realloc
#print axioms Wite.Props.c143_refuted_shrink
#print axioms Wite.Props.c143_refuted_destroyed
#print axioms Wite.Props.c143_repair_partial
#print axioms Wite.Props.c143_in_place_partial
#print axioms Wite.Props.c143_shared_partial
#print axioms Wite.Props.c143_careful_partial
#print axioms Wite.Props.c144_refuted_short
#print axioms Wite.Props.c144_refuted_failed
#print axioms Wite.Props.c144_state_partial
#print axioms Wite.Props.c144_exceptions_partial
#print axioms Wite.Props.c145_refuted_full
#print axioms Wite.Props.c145_state_partial
#print axioms Wite.Props.c145_exceptions_partial
#print axioms Wite.Props.c145_round_trip_partial
#print axioms Wite.Props.c146_refuted_variables
#print axioms Wite.Props.c146_refuted_chained
#print axioms Wite.Props.c146_temporaries_partial
#print axioms Wite.Props.c146_ways_round_partial
#print axioms Wite.Props.c147_refuted_strings
#print axioms Wite.Props.c147_refuted_delimiters
#print axioms Wite.Props.c147_refuted_views
#print axioms Wite.Props.c147_refuted_null
#print axioms Wite.Props.c147_overloads_agree_partial
#print axioms Wite.Props.c147_split_partial
#print axioms Wite.Props.c147_join_partial
#print axioms Wite.Props.c147_round_trip_partial
#print axioms Wite.Props.c147_split_to_partial
#print axioms Wite.Props.c148_refuted_headers
#print axioms Wite.Props.c148_headers_partial
#print axioms Wite.Props.c148_refuted_throws
#print axioms Wite.Props.c148_try_partial
#print axioms Wite.Props.c149_refuted_umbrella
#print axioms Wite.Props.c149_umbrella_partial
#print axioms Wite.Props.c150_refuted_signed
#print axioms Wite.Props.c150_unsigned_partial
#print axioms Wite.Props.c150_several_types_partial
#print axioms Wite.Props.c150_both_orders_partial
#print axioms Wite.Props.c151_agrees_partial
#print axioms Wite.Props.c151_write_partial
#print axioms Wite.Props.c151_refuted_write
#print axioms Wite.Props.c151_read_partial
#print axioms Wite.Props.c151_refuted_read
#print axioms Wite.Props.c151_round_trip_partial
#print axioms Wite.Props.c151_refuted_between
#print axioms Wite.Props.c151_between_partial
#print axioms Wite.Props.c152_agree_partial
#print axioms Wite.Props.c152_refuted_text
#print axioms Wite.Props.c152_refuted_round_trip
#print axioms Wite.Props.c152_fields_partial
#print axioms Wite.Props.c152_refuted_fields
#print axioms Wite.Props.c153_grows
#print axioms Wite.Props.c153_split_partial
#print axioms Wite.Props.c153_refuted_split
#print axioms Wite.Props.c153_trim_left_partial
#print axioms Wite.Props.c153_trim_right_partial
#print axioms Wite.Props.c153_strip_partial
#print axioms Wite.Props.c153_join_partial
#print axioms Wite.Props.c154_same_pieces
#print axioms Wite.Props.c154_parts
#print axioms Wite.Props.c154_local
#print axioms Wite.Props.c155_shows_partial
#print axioms Wite.Props.c155_print_partial
#print axioms Wite.Props.c155_slices_partial
#print axioms Wite.Props.c155_to_str_partial
#print axioms Wite.Props.c155_kept_partial
#print axioms Wite.Props.c155_made
#print axioms Wite.Props.c155_refuted_shorter
#print axioms Wite.Props.c155_changes
#print axioms Wite.Props.c155_refuted_longer
#print axioms Wite.Props.c155_refuted_freed
#print axioms Wite.Props.c156_programs_partial
#print axioms Wite.Props.c156_call_partial
#print axioms Wite.Props.c156_objects_partial
#print axioms Wite.Props.c156_at_partial
#print axioms Wite.Props.c156_at_throws
#print axioms Wite.Props.c156_refuted_erase
#print axioms Wite.Props.c156_refuted_contains
#print axioms Wite.Props.c157_write_partial
#print axioms Wite.Props.c157_refuted_struct
#print axioms Wite.Props.c157_indifferent_partial
#print axioms Wite.Props.c157_refuted_stream
#print axioms Wite.Props.c157_round_trip_partial
#print axioms Wite.Props.c157_refuted_portable
#print axioms Wite.Props.c157_stream_partial
#print axioms Wite.Props.c157_refuted_mixed
#print axioms Wite.Props.c157_refuted_array
#print axioms Wite.Props.c158_reads_partial
#print axioms Wite.Props.c158_writes_partial
#print axioms Wite.Props.c158_refuted_try_read_range
#print axioms Wite.Props.c158_refuted_view_try_read_range
#print axioms Wite.Props.c158_refuted_try_write_at
#print axioms Wite.Props.c158_refuted_try_to_bytes
#print axioms Wite.Props.c158_refuted_try_write
#print axioms Wite.Props.c159_types_partial
#print axioms Wite.Props.c159_refuted_nested
#print axioms Wite.Props.c159_refuted_with_endian
#print axioms Wite.Props.c159_refuted_pointers
#print axioms Wite.Props.c159_streams_partial
#print axioms Wite.Props.c160_contiguous_partial
#print axioms Wite.Props.c160_refuted_deque
#print axioms Wite.Props.c160_refuted_other
#print axioms Wite.Props.c160_refuted_width
#print axioms Wite.Props.c160_refuted_span_view
#print axioms Wite.Props.c161_index_aborting_partial
#print axioms Wite.Props.c161_index_releasing_partial
#print axioms Wite.Props.c161_refuted_index
#print axioms Wite.Props.c161_iterators_aborting_partial
#print axioms Wite.Props.c161_iterators_releasing_partial
#print axioms Wite.Props.c161_reverse_partial
#print axioms Wite.Props.c161_reverse_items_partial
#print axioms Wite.Props.c161_moved_iterators_partial
#print axioms Wite.Props.c161_subscript_partial
#print axioms Wite.Props.c161_refuted_subscript
#print axioms Wite.Props.c161_fragment_access_partial
#print axioms Wite.Props.c161_fragment_search_partial
#print axioms Wite.Props.c161_fragment_live_partial
#print axioms Wite.Props.c161_ranges_partial
#print axioms Wite.Props.c161_numbers_partial
#print axioms Wite.Props.c161_setters_partial
#print axioms Wite.Props.c161_refuted_setters
#print axioms Wite.Props.c161_collections_partial
#print axioms Wite.Props.c161_programs_partial
#print axioms Wite.Props.c161_throwing_programs_partial
#print axioms Wite.Props.c162_gcc_partial
#print axioms Wite.Props.c162_others_partial
#print axioms Wite.Props.c162_refuted_clang
#print axioms Wite.Props.c162_refuted_ndebug
#print axioms Wite.Props.c162_noexcept_partial
#print axioms Wite.Props.c162_refuted_constexpr
#print axioms Wite.Props.c162_order_partial
#print axioms Wite.Props.c162_order_needed
#print axioms Wite.Props.c163_round_trip
#print axioms Wite.Props.c163_one_format
#print axioms Wite.Props.c163_other_default
#print axioms Wite.Props.c163_c_str
#print axioms Wite.Props.c163_unknown
#print axioms Wite.Props.c164_same_partial
#print axioms Wite.Props.c164_x_exact_partial
#print axioms Wite.Props.c164_refuted_x
#print axioms Wite.Props.c164_x_defined_partial
#print axioms Wite.Props.c165_refuted_length
#print axioms Wite.Props.c165_refuted_short
#print axioms Wite.Props.c165_refuted_unterminated
#print axioms Wite.Props.c165_defined_partial
#print axioms Wite.Props.c165_digits_partial
#print axioms Wite.Props.c166_one_string_partial
#print axioms Wite.Props.c166_own_end_partial
#print axioms Wite.Props.c166_noticed_partial
#print axioms Wite.Props.c166_unequal_partial
#print axioms Wite.Props.c166_refuted_distance
#print axioms Wite.Props.c166_refuted_loop
#print axioms Wite.Props.c166_loop_noticed_partial
#print axioms Wite.Props.c167_keep
#print axioms Wite.Props.c167_drop
#print axioms Wite.Props.c167_keep_nothing
#print axioms Wite.Props.c167_drop_digit
#print axioms Wite.Props.c168_digits_partial
#print axioms Wite.Props.c168_refuted
#print axioms Wite.Props.c168_exact_partial
#print axioms Wite.Props.c168_there_and_back_partial
#print axioms Wite.Props.c169_keep
#print axioms Wite.Props.c169_keep_nothing
#print axioms Wite.Props.c169_drop
#print axioms Wite.Props.c170_exact
#print axioms Wite.Props.c170_wrapped
#print axioms Wite.Props.c170_unwrapped
#print axioms Wite.Props.c170_uuid_text
#print axioms Wite.Props.c171_half_open_partial
#print axioms Wite.Props.c171_dense_partial
#print axioms Wite.Props.c171_refuted_closed
#print axioms Wite.Props.c171_refuted_inverted
#print axioms Wite.Props.c171_refuted_open
#print axioms Wite.Props.c171_count_partial
#print axioms Wite.Props.c171_size_partial
#print axioms Wite.Props.c171_unsigned_partial
#print axioms Wite.Props.c171_refuted_size
#print axioms Wite.Props.c171_refuted_flt
#print axioms Wite.Props.c171_refuted_nan
#print axioms Wite.Props.c172_contains_partial
#print axioms Wite.Props.c172_refuted_contains
#print axioms Wite.Props.c172_overlap_partial
#print axioms Wite.Props.c172_refuted_overlap
#print axioms Wite.Props.c172_clamp_partial
#print axioms Wite.Props.c172_refuted_clamp
#print axioms Wite.Props.c172_envelope_partial
#print axioms Wite.Props.c172_refuted_envelope
#print axioms Wite.Props.c173_same_partial
#print axioms Wite.Props.c173_iff_partial
#print axioms Wite.Props.c173_relation_partial
#print axioms Wite.Props.c173_refuted_nothing
#print axioms Wite.Props.c173_flt_partial
#print axioms Wite.Props.c173_refuted_nan
#print axioms Wite.Props.c174_double_partial
#print axioms Wite.Props.c174_interpolate_partial
#print axioms Wite.Props.c174_upper_partial
#print axioms Wite.Props.c174_near_partial
#print axioms Wite.Props.c174_fraction_partial
#print axioms Wite.Props.c174_unit_partial
#print axioms Wite.Props.c174_normal_partial
#print axioms Wite.Props.c174_refuted_overflow
#print axioms Wite.Props.c174_refuted_tiny
#print axioms Wite.Props.c174_refuted_upper_end
#print axioms Wite.Props.c174_refuted_interpolate
#print axioms Wite.Props.c175_search
#print axioms Wite.Props.c175_sort_partial
#print axioms Wite.Props.c175_sort_increments_partial
#print axioms Wite.Props.c175_sort_checked_partial
#print axioms Wite.Props.c175_refuted_one
#print axioms Wite.Props.c175_refuted_last
#print axioms Wite.Props.c175_sort_then_search_partial
#print axioms Wite.Props.c176_uuid
#print axioms Wite.Props.c176_index
#print axioms Wite.Props.c176_point
#print axioms Wite.Props.c176_range
#print axioms Wite.Props.c176_fragments
#print axioms Wite.Props.c176_failed
#print axioms Wite.Props.c176_values
#print axioms Wite.Props.c177_alone
#print axioms Wite.Props.c177_sequence
#print axioms Wite.Props.c177_device_fails
#print axioms Wite.Props.c177_version
#print axioms Wite.Props.c178_index_partial
#print axioms Wite.Props.c178_ends_partial
#print axioms Wite.Props.c178_copy_partial
#print axioms Wite.Props.c178_substr_partial
#print axioms Wite.Props.c178_substr_end_partial
#print axioms Wite.Props.c178_starts_with_partial
#print axioms Wite.Props.c178_ends_with_partial
#print axioms Wite.Props.c178_compare_partial
#print axioms Wite.Props.c178_refuted_compare
#print axioms Wite.Props.c178_find_partial
#print axioms Wite.Props.c178_find_empty
#print axioms Wite.Props.c178_refuted_find
#print axioms Wite.Props.c178_contains_partial
#print axioms Wite.Props.c178_contains_fs_partial
#print axioms Wite.Props.c178_starts_with_fs_partial
#print axioms Wite.Props.c178_ends_with_fs_partial
#print axioms Wite.Props.c178_compare_fs_partial
#print axioms Wite.Props.c178_refuted_self
#print axioms Wite.Props.c179_vector_partial
#print axioms Wite.Props.c179_refuted
#print axioms Wite.Props.c179_steps
#print axioms Wite.Props.c179_reverse
#print axioms Wite.Props.c179_sort_release
#print axioms Wite.Props.c179_rvector_partial
#print axioms Wite.Props.c179_collection_partial
#print axioms Wite.Props.c179_fragments
#print axioms Wite.Props.c179_two_partial
#print axioms Wite.Props.c179_copy
#print axioms Wite.Props.c179_equal
#print axioms Wite.Props.c180_partial
#print axioms Wite.Props.c180_distinct_partial
#print axioms Wite.Props.c180_same
#print axioms Wite.Props.c180_map
#print axioms Wite.Props.c180_refuted_finer
#print axioms Wite.Props.c180_refuted_coarser
#print axioms Wite.Props.c180_refuted_dangling
#print axioms Wite.Props.c181_write_partial
#print axioms Wite.Props.c181_write_at_partial
#print axioms Wite.Props.c181_try_partial
#print axioms Wite.Props.c181_refuted_swap
#print axioms Wite.Props.c181_span
#print axioms Wite.Props.c181_refuted_span
#print axioms Wite.Props.c181_read_partial
#print axioms Wite.Props.c181_refuted_read
#print axioms Wite.Props.c182_one
#print axioms Wite.Props.c182_erase_partial
#print axioms Wite.Props.c182_refuted_erase
#print axioms Wite.Props.c182_refuted_twice
#print axioms Wite.Props.c182_insert_self
#print axioms Wite.Props.c183_effect_partial
#print axioms Wite.Props.c183_same_as_copy
#print axioms Wite.Props.c183_refuted_lost
#print axioms Wite.Props.c183_counts_partial
#print axioms Wite.Props.c183_refuted_copies
#print axioms Wite.Props.c183_destroyed
#print axioms Wite.Props.c184_compiles
#print axioms Wite.Props.c184_same_numbers_partial
#print axioms Wite.Props.c184_refuted_argument
#print axioms Wite.Props.c184_refuted_fraction
#print axioms Wite.Props.c184_refuted_value
#print axioms Wite.Props.c184_refuted_key
#print axioms Wite.Props.c185_same_numbers_partial
#print axioms Wite.Props.c185_setters_partial
#print axioms Wite.Props.c185_refuted_wrap
#print axioms Wite.Props.c185_refuted_setters
#print axioms Wite.Props.c185_refuted_make
#print axioms Wite.Props.c185_refuted_fraction
#print axioms Wite.Props.c185_refuted_open
#print axioms Wite.Props.c185_never_rejects_partial
#print axioms Wite.Props.c186_bounds_partial
#print axioms Wite.Props.c186_contains_partial
#print axioms Wite.Props.c186_refuted_contains
#print axioms Wite.Props.c186_refuted_smallest
#print axioms Wite.Props.c186_refuted_variable
#print axioms Wite.Props.c187_any_container_partial
#print axioms Wite.Props.c187_no_exception
#print axioms Wite.Props.c187_static_fits_partial
#print axioms Wite.Props.c187_refuted_full
#print axioms Wite.Props.c187_refuted_delimiters
#print axioms Wite.Props.c187_pointer
#print axioms Wite.Props.c188_own_types
#print axioms Wite.Props.c188_number_kept_partial
#print axioms Wite.Props.c188_refuted_ambiguous
#print axioms Wite.Props.c188_refuted_promoted
#print axioms Wite.Props.c188_braces_partial
#print axioms Wite.Props.c188_refuted_braces
#print axioms Wite.Props.c188_refuted_wrap
#print axioms Wite.Props.c188_refuted_fraction
#print axioms Wite.Props.c188_value_or_partial
#print axioms Wite.Props.c189_points_kept
#print axioms Wite.Props.c189_refuted_parens
#print axioms Wite.Props.c189_same_number_partial
#print axioms Wite.Props.c189_refuted_wrap
#print axioms Wite.Props.c189_refuted_fraction
#print axioms Wite.Props.c190_exact_partial
#print axioms Wite.Props.c190_refuted_unsigned
#print axioms Wite.Props.c190_refuted_half
#print axioms Wite.Props.c190_refuted_make
#print axioms Wite.Props.c190_refuted_fraction
#print axioms Wite.Props.c191_own
#print axioms Wite.Props.c191_generic
#print axioms Wite.Props.c191_visit
#print axioms Wite.Props.c191_order
#print axioms Wite.Props.c191_forgotten_partial
#print axioms Wite.Props.c191_refuted_forgotten
#print axioms Wite.Props.c191_refuted_promoted
#print axioms Wite.Props.c191_ambiguous_partial
#print axioms Wite.Props.c192_braces
#print axioms Wite.Props.c192_exact
#print axioms Wite.Props.c192_defined_partial
#print axioms Wite.Props.c192_refuted
#print axioms Wite.Props.c193_exact_partial
#print axioms Wite.Props.c193_refuted
#print axioms Wite.Props.c193_refuted_swap
#print axioms Wite.Props.c193_refuted_fragments
#print axioms Wite.Props.c193_refuted_collections
#print axioms Wite.Props.c193_mixed
#print axioms Wite.Props.c193_substitute
#print axioms Wite.Props.c193_write
#print axioms Wite.Props.c193_conversions
#print axioms Wite.Props.c194_expressions
#print axioms Wite.Props.c194_programs
#print axioms Wite.Props.c194_ids
#print axioms Wite.Props.c194_compile
#print axioms Wite.Props.c194_arithmetic
#print axioms Wite.Props.c194_types_needed
#print axioms Wite.Props.c194_values
#print axioms Wite.Props.c194_id_meaning
#print axioms Wite.Props.c194_index_meaning
#print axioms Wite.Props.c194_unequal
#print axioms Wite.Props.c195_exact_partial
#print axioms Wite.Props.c195_unchanged_partial
#print axioms Wite.Props.c195_arguments_partial
#print axioms Wite.Props.c195_refuted
#print axioms Wite.Props.c195_refuted_getters
#print axioms Wite.Props.c195_set_min_partial
#print axioms Wite.Props.c195_set_max_partial
#print axioms Wite.Props.c195_refuted_torn
#print axioms Wite.Props.c195_computes_partial
#print axioms Wite.Props.c195_refuted_arith
#print axioms Wite.Props.c195_disorder
#print axioms Wite.Props.c195_set_min_open_partial
#print axioms Wite.Props.c195_set_max_open_partial
#print axioms Wite.Props.c196_text_order_partial
#print axioms Wite.Props.c196_same_fields_partial
#print axioms Wite.Props.c196_refuted
#print axioms Wite.Props.c197_all_or_nothing_partial
#print axioms Wite.Props.c197_afterwards_partial
#print axioms Wite.Props.c197_refuted
#print axioms Wite.Props.c198_exact
#print axioms Wite.Props.c198_plain_partial
#print axioms Wite.Props.c198_refuted_namespaces
#print axioms Wite.Props.c198_refuted_standard
#print axioms Wite.Props.c198_refuted_order
#print axioms Wite.Props.c198_refuted_wide
#print axioms Wite.Props.c198_refuted_umbrella
#print axioms Wite.Props.c198_headers
#print axioms Wite.Props.c198_lookalikes
#print axioms Wite.Props.c199_exact
#print axioms Wite.Props.c199_item_partial
#print axioms Wite.Props.c199_converted_partial
#print axioms Wite.Props.c199_id_partial
#print axioms Wite.Props.c199_several_partial
#print axioms Wite.Props.c199_refuted_result
#print axioms Wite.Props.c199_refuted_container
#print axioms Wite.Props.c199_refuted_views
#print axioms Wite.Props.c199_refuted_moved
#print axioms Wite.Props.c199_refuted_move_only
#print axioms Wite.Props.c199_refuted_ids
#print axioms Wite.Props.c199_refuted_detect
#print axioms Wite.Props.c199_refuted_detect_range
#print axioms Wite.Props.c199_refuted_immovable
#print axioms Wite.Props.c200_exact
#print axioms Wite.Props.c200_exact_try
#print axioms Wite.Props.c200_exact_views
#print axioms Wite.Props.c200_exact_streams
#print axioms Wite.Props.c200_exact_hex
#print axioms Wite.Props.c200_integers_partial
#print axioms Wite.Props.c200_written_partial
#print axioms Wite.Props.c200_refuted_read
#print axioms Wite.Props.c200_refuted_ranges
#print axioms Wite.Props.c200_refuted_classes
#print axioms Wite.Props.c200_refuted_hex
#print axioms Wite.Props.c200_refuted_unconstrained
#print axioms Wite.Props.c200_refuted_streams
#print axioms Wite.Props.c201_exact_read
#print axioms Wite.Props.c201_exact_try
#print axioms Wite.Props.c201_exact_write
#print axioms Wite.Props.c201_exact_try_write
#print axioms Wite.Props.c201_char_like_partial
#print axioms Wite.Props.c201_same_type_partial
#print axioms Wite.Props.c201_refuted
#print axioms Wite.Props.c201_refuted_to_bytes
#print axioms Wite.Props.c202_partial
#print axioms Wite.Props.c202_cases_partial
#print axioms Wite.Props.c202_effect_partial
#print axioms Wite.Props.c202_refuted_write
#print axioms Wite.Props.c202_refuted_try_write
#print axioms Wite.Props.c202_refuted_count
#print axioms Wite.Props.c202_refuted_compile
#print axioms Wite.Props.c202_refuted_headers
#print axioms Wite.Props.c203_same_string_partial
#print axioms Wite.Props.c203_same_vector_partial
#print axioms Wite.Props.c203_refuted_string
#print axioms Wite.Props.c203_refuted_index
#print axioms Wite.Props.c203_refuted_search
#print axioms Wite.Props.c203_string_partial
#print axioms Wite.Props.c203_vector_exact
#print axioms Wite.Props.c203_refuted_builds
#print axioms Wite.Props.c203_refuted_shrink
#print axioms Wite.Props.c203_others_partial
#print axioms Wite.Props.c203_refuted_others
#print axioms Wite.Props.c204_exact
#print axioms Wite.Props.c204_exact_others
#print axioms Wite.Props.c204_partial
#print axioms Wite.Props.c204_refuted_forms
#print axioms Wite.Props.c204_refuted_characters
#print axioms Wite.Props.c204_refuted_fragments
#print axioms Wite.Props.c204_same_text
#print axioms Wite.Props.c204_answers_partial
#print axioms Wite.Props.c204_refuted_wide_compare
#print axioms Wite.Props.c204_wide_compare_partial
#print axioms Wite.Props.c204_refuted_char32_compare
#print axioms Wite.Props.c205_copy
#print axioms Wite.Props.c205_copy_partial
#print axioms Wite.Props.c205_refuted_cleared
#print axioms Wite.Props.c205_move
#print axioms Wite.Props.c205_refuted_moved
#print axioms Wite.Props.c205_assign_partial
#print axioms Wite.Props.c205_swap_partial
#print axioms Wite.Props.c205_self
#print axioms Wite.Props.c205_destroyed
#print axioms Wite.Props.c205_only_partial
#print axioms Wite.Props.c205_values
#print axioms Wite.Props.c206_map_partial
#print axioms Wite.Props.c206_uuid_map
#print axioms Wite.Props.c206_index_map
#print axioms Wite.Props.c206_id_map
#print axioms Wite.Props.c206_point_map
#print axioms Wite.Props.c206_int_map
#print axioms Wite.Props.c206_float_map_partial
#print axioms Wite.Props.c206_refuted_nan
#print axioms Wite.Props.c206_refuted_nan_first
#print axioms Wite.Props.c206_unordered_partial
#print axioms Wite.Props.c206_uuid_unordered
#print axioms Wite.Props.c206_types_map
#print axioms Wite.Props.c206_refuted_ids
#print axioms Wite.Props.c206_refuted_ranges
#print axioms Wite.Props.c206_refuted_hash
#print axioms Wite.Props.c207_copy
#print axioms Wite.Props.c207_move
#print axioms Wite.Props.c207_assign
#print axioms Wite.Props.c207_move_assign
#print axioms Wite.Props.c207_values_partial
#print axioms Wite.Props.c207_members_partial
#print axioms Wite.Props.c207_default
#print axioms Wite.Props.c207_refuted_default
#print axioms Wite.Props.c207_refuted_views
#print axioms Wite.Props.c207_refuted_collections
#print axioms Wite.Props.c207_moved_partial
#print axioms Wite.Props.c207_refuted_guards
#print axioms Wite.Props.c207_refuted_filled
#print axioms Wite.Props.c207_refuted_views_filled
#print axioms Wite.Props.c207_refuted_results
#print axioms Wite.Props.c207_refuted_view_results
#print axioms Wite.Props.c207_refuted_lookups
#print axioms Wite.Props.c207_lookups_partial
#print axioms Wite.Props.c207_guards_partial
#print axioms Wite.Props.c208_round_trip_partial
#print axioms Wite.Props.c208_whole
#print axioms Wite.Props.c208_any_bytes_partial
#print axioms Wite.Props.c208_read_iff
#print axioms Wite.Props.c208_try
#print axioms Wite.Props.c208_recover
#print axioms Wite.Props.c208_refuted_cursor
#print axioms Wite.Props.c208_refuted_memory
#print axioms Wite.Props.c208_refuted_width
#print axioms Wite.Props.c208_refuted_try_write
#print axioms Wite.Props.c208_refuted_try_cursor
#print axioms Wite.Props.c209_strings_partial
#print axioms Wite.Props.c209_views_partial
#print axioms Wite.Props.c209_readme
#print axioms Wite.Props.c209_pointers
#print axioms Wite.Props.c209_refuted_pointers
#print axioms Wite.Props.c209_refuted_changed
#print axioms Wite.Props.c209_refuted_gone
#print axioms Wite.Props.c209_refuted_strings_as_views
#print axioms Wite.Props.c209_refuted_nul
#print axioms Wite.Props.c209_refuted_forms
#print axioms Wite.Props.c210_containers
#print axioms Wite.Props.c210_map_hash
#print axioms Wite.Props.c210_list
#print axioms Wite.Props.c210_unordered
#print axioms Wite.Props.c210_needs_hash
#print axioms Wite.Props.c211_write
#print axioms Wite.Props.c211_try_write
#print axioms Wite.Props.c211_read
#print axioms Wite.Props.c211_read_throws
#print axioms Wite.Props.c211_cut
#print axioms Wite.Props.c211_try_read
#print axioms Wite.Props.c211_unique
#print axioms Wite.Props.c211_round_trip
#print axioms Wite.Props.c211_streams
#print axioms Wite.Props.c212_save
#print axioms Wite.Props.c212_too_small
#print axioms Wite.Props.c212_round_trip
#print axioms Wite.Props.c212_load
#print axioms Wite.Props.c212_defined
#print axioms Wite.Props.c212_again
#print axioms Wite.Props.c212_cut
#print axioms Wite.Props.c212_short_read
#print axioms Wite.Props.c213_min_partial
#print axioms Wite.Props.c213_refuted_min
#print axioms Wite.Props.c213_minmax_partial
#print axioms Wite.Props.c213_refuted_minmax
#print axioms Wite.Props.c213_envelope_partial
#print axioms Wite.Props.c213_refuted_members
#print axioms Wite.Props.c213_ranges_partial
#print axioms Wite.Props.c213_refuted_ranges
#print axioms Wite.Props.c213_unordered
#print axioms Wite.Props.c213_agrees
#print axioms Wite.Props.c214_uniform
#print axioms Wite.Props.c214_sequences
#print axioms Wite.Props.c214_same
#print axioms Wite.Props.c214_draws
#print axioms Wite.Props.c214_refuted_threads
#print axioms Wite.Props.c214_refuted_first
#print axioms Wite.Props.c215_queue_partial
#print axioms Wite.Props.c215_exceptions_partial
#print axioms Wite.Props.c215_refuted_early
#print axioms Wite.Props.c215_refuted_rest
#print axioms Wite.Props.c215_recover_partial
#print axioms Wite.Props.c215_refuted_text
#print axioms Wite.Props.c215_refuted_file
#print axioms Wite.Props.c215_records_partial
#print axioms Wite.Props.c215_refuted_gap
#print axioms Wite.Props.c215_file_gap
#print axioms Wite.Props.c216_construct_partial
#print axioms Wite.Props.c216_make_partial
#print axioms Wite.Props.c216_refuted_terminate
#print axioms Wite.Props.c216_refuted_copies
#print axioms Wite.Props.c216_at_partial
#print axioms Wite.Props.c216_with_partial
#print axioms Wite.Props.c217_prefix
#print axioms Wite.Props.c217_room_partial
#print axioms Wite.Props.c217_flush_partial
#print axioms Wite.Props.c217_refuted
#print axioms Wite.Props.c217_refuted_which
#print axioms Wite.Props.c217_unit_partial
#print axioms Wite.Props.c217_refuted_unit
#print axioms Wite.Props.c217_unbuffered
#print axioms Wite.Props.c218_rename_partial
#print axioms Wite.Props.c218_rename_whole_partial
#print axioms Wite.Props.c218_quiet_partial
#print axioms Wite.Props.c218_write_partial
#print axioms Wite.Props.c218_refuted_empty
#print axioms Wite.Props.c218_refuted_torn
#print axioms Wite.Props.c218_refuted_killed
#print axioms Wite.Props.c218_refuted_two
#print axioms Wite.Props.c218_refuted_short
#print axioms Wite.Props.c218_bytes_partial
#print axioms Wite.Props.c218_growing_partial
#print axioms Wite.Props.c219_race
#print axioms Wite.Props.c219_alone
#print axioms Wite.Props.c219_finish
#print axioms Wite.Props.c219_overlap
#print axioms Wite.Props.c220_text_partial
#print axioms Wite.Props.c220_keep_partial
#print axioms Wite.Props.c220_partial
#print axioms Wite.Props.c220_refuted_empty
#print axioms Wite.Props.c220_refuted_cell
#print axioms Wite.Props.c220_drop_partial
#print axioms Wite.Props.c220_strip_partial
#print axioms Wite.Props.c220_refuted_drop
#print axioms Wite.Props.c221_partial
#print axioms Wite.Props.c221_back_partial
#print axioms Wite.Props.c221_refuted
