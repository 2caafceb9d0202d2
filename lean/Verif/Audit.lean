import Verif.Props.ArrayReader
import Verif.Props.ArrayView
import Verif.Props.ArrayWriter
import Verif.Props.Bitmap
import Verif.Props.Builder
import Verif.Props.BuilderOom
import Verif.Props.BuilderOomCoords
import Verif.Props.Coords
import Verif.Props.CppArray
import Verif.Props.CppDataType
import Verif.Props.CppDispatch
import Verif.Props.CppExtType
import Verif.Props.CppInit
import Verif.Props.CppIter
import Verif.Props.CppReader
import Verif.Props.CppWkbArray
import Verif.Props.ErrorText
import Verif.Props.FromSchema
import Verif.Props.GeomBuilder
import Verif.Props.GeomNodes
import Verif.Props.Kernel
import Verif.Props.KernelApi
import Verif.Props.KernelLife
import Verif.Props.Metadata
import Verif.Props.NativeAppend
import Verif.Props.NativeWriter
import Verif.Props.Ownership
import Verif.Props.ParseDouble
import Verif.Props.PrintDouble
import Verif.Props.ScalarUdf
import Verif.Props.Schema
import Verif.Props.StdNumbers
import Verif.Props.Types
import Verif.Props.Visit
import Verif.Props.WkbBoth
import Verif.Props.WkbOom
import Verif.Props.WkbOomAppend
import Verif.Props.WkbParser
import Verif.Props.WkbReader
import Verif.Props.WkbWriter
import Verif.Props.WktError
import Verif.Props.WktOom
import Verif.Props.WktReader
import Verif.Props.WktWriter
import Verif.Props.WriterApi
/-! Axioms of every property theorem (generated). Expected: subsets of propext, Classical.choice, Quot.sound. -/
#print axioms Verif.C01_bswap32_reverses
#print axioms Verif.C01_bswap64_reverses
#print axioms Verif.C01_bswap32_involutive
#print axioms Verif.C01_bswap64_involutive
#print axioms Verif.C02_split_then_make
#print axioms Verif.C02_make_then_split
#print axioms Verif.C02_make_injective
#print axioms Verif.C02_unspecified_parts
#print axioms Verif.C02_serialized_parts
#print axioms Verif.C02_extension_name
#print axioms Verif.C02_collection_makes_undocumented_type
#print axioms Verif.C03_created_types
#print axioms Verif.C03_view_of_created
#print axioms Verif.C03_storage_view_of_created
#print axioms Verif.C03_view_from_type
#print axioms Verif.C04_view_exact_partial
#print axioms Verif.C04_storage_view_exact_partial
#print axioms Verif.C04_accepted_layout_partial
#print axioms Verif.C04_size_wraps
#print axioms Verif.C04_missing_format
#print axioms Verif.C04_wkb_name_prefix
#print axioms Verif.C05_coord_view_copy
#print axioms Verif.C05_dimension_map
#print axioms Verif.C06_write_sequence_exact_partial
#print axioms Verif.C06_size_wraps
#print axioms Verif.C07_copy_coords_partial
#print axioms Verif.C07_num_coords
#print axioms Verif.C07_swapped_fill_not_nan
#print axioms Verif.C08_sequence_chunks
#print axioms Verif.C09_view_visit
#print axioms Verif.C09_recorded
#print axioms Verif.C10_success_implies_layout_partial
#print axioms Verif.C10_too_many_nodes
#print axioms Verif.C10_polygon_too_few_rings
#print axioms Verif.C10_too_few_nodes_reads_outside
#print axioms Verif.C11_array_reader
#print axioms Verif.C11_native_visit
#print axioms Verif.C11_view_visit
#print axioms Verif.C11_error_verbatim
#print axioms Verif.C11_wkb_visit
#print axioms Verif.C11_wkb_reader_reusable
#print axioms Verif.C11_wkt_visit
#print axioms Verif.C11_wkt_reader_reusable
#print axioms Verif.C12_read_valid_partial
#print axioms Verif.C12_long_ring_misread
#print axioms Verif.C13_consumed_inside_partial
#print axioms Verif.C13_point_linestring_reads_inside_partial
#print axioms Verif.C13_count_overflow_reads_outside
#print axioms Verif.C13_truncated_reads_outside
#print axioms Verif.C14_accepted_is_tree
#print axioms Verif.C14_visit_never_rejects
#print axioms Verif.C15_parser_inside
#print axioms Verif.C15_view_inside
#print axioms Verif.C15_accounting
#print axioms Verif.C15_visit_inside
#print axioms Verif.C16_valid
#print axioms Verif.C16_too_many
#print axioms Verif.C16_too_few
#print axioms Verif.C16_srid
#print axioms Verif.C16_view_valid
#print axioms Verif.C16_view_truncates
#print axioms Verif.C16_view_truncates_witness
#print axioms Verif.C17_visitor_writes_iso
#print axioms Verif.C17_iso_is_wkb
#print axioms Verif.C18_append_equals_visit
#print axioms Verif.C19_write_read
#print axioms Verif.C19_without_empty_points
#print axioms Verif.C20_history_array
#print axioms Verif.C20_overlong_reported
#print axioms Verif.C21_reuse_after_finish
#print axioms Verif.C22_geometry_features_safe_partial
#print axioms Verif.C22_geometry_after_error
#print axioms Verif.C22_geometry_unknown_dimensions
#print axioms Verif.C22_wkb_matched_closes_safe_partial
#print axioms Verif.C22_wkb_unopened_geometry_end
#print axioms Verif.C22_wkb_point_ring_end
#print axioms Verif.C22_wkb_null_before_start
#print axioms Verif.C22_wkt_calls_safe_partial
#print axioms Verif.C22_wkt_null_before_start
#print axioms Verif.C22_wkt_limit_before_start
#print axioms Verif.C23_writes_wkt
#print axioms Verif.C24_stops_only_at_limit
#print axioms Verif.C24_feature_cut_partial
#print axioms Verif.C24_history_partial
#print axioms Verif.C24_limit_ignored_after_null
#print axioms Verif.C25_history_array
#print axioms Verif.C25_reuse_after_finish
#print axioms Verif.C25_overlong_reported
#print axioms Verif.C26_no_undefined_behaviour
#print axioms Verif.C26_safe_with_any_visitor
#print axioms Verif.C27_round_trip
#print axioms Verif.C27_round_trip_flat_partial
#print axioms Verif.C27_write_then_read_partial
#print axioms Verif.C27_mixed_flat_multipoint
#print axioms Verif.C28_success
#print axioms Verif.C28_failure
#print axioms Verif.C28_complete
#print axioms Verif.C28_accepts_exactly_the_grammar
#print axioms Verif.C28_nul_ends_the_text
#print axioms Verif.C29_spacing_partial
#print axioms Verif.C29_space_in_flat_multipoint
#print axioms Verif.C30_build_partial
#print axioms Verif.C30_nested_empties_lost
#print axioms Verif.C30_null_feature
#print axioms Verif.C31_deep_copy_partial
#print axioms Verif.C31_swapped_source
#print axioms Verif.C32_buffers_partial
#print axioms Verif.C32_coords_partial
#print axioms Verif.C32_reserved
#print axioms Verif.C32_mixed_use_overflows
#print axioms Verif.C32_misaligned_overflows
#print axioms Verif.C32_finished_partial
#print axioms Verif.C32_from_schema
#print axioms Verif.C32_from_made_schema
#print axioms Verif.C33_finished
#print axioms Verif.C33_read
#print axioms Verif.C33_finish_succeeds
#print axioms Verif.C34_array
#print axioms Verif.C34_round_trip
#print axioms Verif.C34_same
#print axioms Verif.C34_too_many
#print axioms Verif.C35_array_partial
#print axioms Verif.C35_round_trip_partial
#print axioms Verif.C35_same
#print axioms Verif.C35_too_many_vanish
#print axioms Verif.C36_rejected_partial
#print axioms Verif.C36_only_these_partial
#print axioms Verif.C36_too_long_ring_leaks
#print axioms Verif.C37_own_coords_partial
#print axioms Verif.C37_accepted_partial
#print axioms Verif.C37_order_partial
#print axioms Verif.C37_collection_leaks
#print axioms Verif.C37_rejected_point_leaks
#print axioms Verif.C37_rejected_line_leaks
#print axioms Verif.C37_unfinished_leaks
#print axioms Verif.C38_reader
#print axioms Verif.C38_visit_range
#print axioms Verif.C38_consecutive
#print axioms Verif.C39_reader
#print axioms Verif.C39_visit_boxes
#print axioms Verif.C39_other_dimensions
#print axioms Verif.C40_box
#print axioms Verif.C40_bounds_unique
#print axioms Verif.C41_accepts
#print axioms Verif.C41_box_agg
#print axioms Verif.C41_batching
#print axioms Verif.C42_accepts
#print axioms Verif.C42_types
#print axioms Verif.C42_order
#print axioms Verif.C43_rows_of_the_failed_batch
#print axioms Verif.C43_refused_array_partial
#print axioms Verif.C43_rows_held_back
#print axioms Verif.C43_witness
#print axioms Verif.C44_serialize_partial
#print axioms Verif.C44_backslashes
#print axioms Verif.C44_witness
#print axioms Verif.C45_schema
#print axioms Verif.C45_round_trip_partial
#print axioms Verif.C45_viewed
#print axioms Verif.C45_witness
#print axioms Verif.C46_terminated_partial
#print axioms Verif.C46_only_bad_texts_read_behind
#print axioms Verif.C46_returns_partial
#print axioms Verif.C46_steps
#print axioms Verif.C46_hangs
#print axioms Verif.C46_reads_behind
#print axioms Verif.C47_by_length
#print axioms Verif.C47_names_partial
#print axioms Verif.C47_absent
#print axioms Verif.C47_empty
#print axioms Verif.C47_null
#print axioms Verif.C47_witness
#print axioms Verif.C48_unescape
#print axioms Verif.C48_length
#print axioms Verif.C48_other_escapes
#print axioms Verif.C49_bitmap_records
#print axioms Verif.C49_append_run
#print axioms Verif.C50_vertices
#print axioms Verif.C50_element
#print axioms Verif.C50_slice
#print axioms Verif.C50_array
#print axioms Verif.C50_validity
#print axioms Verif.C50_array_slice
#print axioms Verif.C51_coordinates
#print axioms Verif.C51_lists
#print axioms Verif.C51_array
#print axioms Verif.C51_points
#print axioms Verif.C51_wkb
#print axioms Verif.C52_empty_partial
#print axioms Verif.C52_xyz_xym_not_empty
#print axioms Verif.C53_wkb
#print axioms Verif.C53_wkt
#print axioms Verif.C53_wkb_geometries
#print axioms Verif.C53_wkt_geometries
#print axioms Verif.C53_accepted
#print axioms Verif.C54_through_native
#print axioms Verif.C54_wkb
#print axioms Verif.C55_large_buffers_unchecked
#print axioms Verif.C55_native_exact_partial
#print axioms Verif.C55_native_accepted
#print axioms Verif.C55_box_exact_partial
#print axioms Verif.C55_serialized_buffers_unchecked
#print axioms Verif.C55_root_buffers_unchecked
#print axioms Verif.C56_find
#print axioms Verif.C56_types
#print axioms Verif.C56_builder
#print axioms Verif.C56_owned
#print axioms Verif.C56_finish
#print axioms Verif.C56_range_unchecked
#print axioms Verif.C57_default_build_partial
#print axioms Verif.C57_decimals
#print axioms Verif.C57_round_trip_partial
#print axioms Verif.C57_parser_exists
#print axioms Verif.C57_lost
#print axioms Verif.C57_tiny
#print axioms Verif.C57_negative_zero
#print axioms Verif.C57_wkt_round_trip_partial
#print axioms Verif.C57_wkt_default_partial
#print axioms Verif.C58_bad_byte_order
#print axioms Verif.C58_short
#print axioms Verif.C58_bad_type_partial
#print axioms Verif.C58_bad_type_srid_partial
#print axioms Verif.C58_short_srid
#print axioms Verif.C58_header_alone
#print axioms Verif.C58_unknown_flags_accepted
#print axioms Verif.C58_undefined_thousands_accepted
#print axioms Verif.C59_coord_cast
#print axioms Verif.C60_bounds
#print axioms Verif.C61_vertices
#print axioms Verif.C61_edges
#print axioms Verif.C61_bad_element
#print axioms Verif.C61_slice
#print axioms Verif.C62_start
#print axioms Verif.C62_start_refused
#print axioms Verif.C62_native
#print axioms Verif.C62_wkb
#print axioms Verif.C62_wkt
#print axioms Verif.C62_in_memory
#print axioms Verif.C62_schema
#print axioms Verif.C62_metadata_from
#print axioms Verif.C63_format_wkt
#print axioms Verif.C63_no_limit
#print axioms Verif.C63_limit
#print axioms Verif.C64_from_schema
#print axioms Verif.C64_from_made_schema
#print axioms Verif.C64_wkt
#print axioms Verif.C64_wkb
#print axioms Verif.C64_native
#print axioms Verif.C64_options
#print axioms Verif.C65_outcome
#print axioms Verif.C65_precision_partial
#print axioms Verif.C65_witness
#print axioms Verif.C66_text
#print axioms Verif.C66_length
#print axioms Verif.C66_error
#print axioms Verif.C66_writer_precision
#print axioms Verif.C67_with_geometry_type
#print axioms Verif.C67_with_dimensions
#print axioms Verif.C67_with_coord_type
#print axioms Verif.C67_simple_multi
#print axioms Verif.C67_schema
#print axioms Verif.C67_storage
#print axioms Verif.C67_metadata
#print axioms Verif.C67_to_string
#print axioms Verif.C67_not_storable_witness
#print axioms Verif.C67_short_limit_witness
#print axioms Verif.C68_names
#print axioms Verif.C68_start
#print axioms Verif.C68_box
#print axioms Verif.C68_box_agg
#print axioms Verif.C68_types
#print axioms Verif.C68_format_wkt
#print axioms Verif.C68_to_native
#print axioms Verif.C68_to_wkb
#print axioms Verif.C68_to_wkt
#print axioms Verif.C68_finish_scalar
#print axioms Verif.C68_validates_wkt
#print axioms Verif.C68_validates_wkb
#print axioms Verif.C68_visit
#print axioms Verif.C68_void
#print axioms Verif.C68_restart
#print axioms Verif.C68_push_before_start
#print axioms Verif.C68_finish_before_start
#print axioms Verif.C68_push_after_failed_start
#print axioms Verif.C68_refused_start_switches
#print axioms Verif.C69_reads
#print axioms Verif.C69_range
#print axioms Verif.C69_exact
#print axioms Verif.C69_words
#print axioms Verif.C69_total
#print axioms Verif.C69_machine_exists
#print axioms Verif.C69_correct
#print axioms Verif.C69_trailing
#print axioms Verif.C69_plus
#print axioms Verif.C70_exactly_once
#print axioms Verif.C70_held_or_freed
#print axioms Verif.C70_reason
#print axioms Verif.C70_accepted
#print axioms Verif.C70_heap
#print axioms Verif.C70_wrapped
#print axioms Verif.C70_shown
#print axioms Verif.C70_other_buffers
#print axioms Verif.C70_finished
#print axioms Verif.C70_empty_not_finished
#print axioms Verif.C70_refused_growth
#print axioms Verif.C71_accepted
#print axioms Verif.C71_leading
#print axioms Verif.C71_vertices
#print axioms Verif.C71_edges
#print axioms Verif.C71_fewer
#print axioms Verif.C71_axes_confused
#print axioms Verif.C71_coords
#print axioms Verif.C71_boxes
#print axioms Verif.C71_wkb
#print axioms Verif.C72_positions
#print axioms Verif.C72_coordinates
#print axioms Verif.C72_lists
#print axioms Verif.C72_blobs
#print axioms Verif.C72_dimension_positions
#print axioms Verif.C72_ordinates
#print axioms Verif.C72_subscript_partial
#print axioms Verif.C72_subscript_ignores_stride
#print axioms Verif.C72_interleaved
#print axioms Verif.C72_separated
#print axioms Verif.C72_unaligned
#print axioms Verif.C72_unaligned_ordinates
#print axioms Verif.C72_unaligned_positions
#print axioms Verif.C72_post_increment_reads_a_byte
#print axioms Verif.C72_unaligned_init
#print axioms Verif.C72_unaligned_pointers
#print axioms Verif.C73_history_partial
#print axioms Verif.C73_appended
#print axioms Verif.C73_room
#print axioms Verif.C73_freed
#print axioms Verif.C73_no_memory
#print axioms Verif.C73_failure_loses_nodes
#print axioms Verif.C73_failure_leaks
#print axioms Verif.C73_negative_size
#print axioms Verif.C73_size_wraps
#print axioms Verif.C73_copy
#print axioms Verif.C73_interleaved
#print axioms Verif.C73_separated
#print axioms Verif.C74_libc_exists
#print axioms Verif.C74_prints
#print axioms Verif.C74_prints_large
#print axioms Verif.C74_prints_short
#print axioms Verif.C74_precision_zero
#print axioms Verif.C74_precision_zero_nothing
#print axioms Verif.C74_reads
#print axioms Verif.C74_accepts
#print axioms Verif.C74_infinity
#print axioms Verif.C74_too_long
#print axioms Verif.C74_trailing
#print axioms Verif.C74_plus
#print axioms Verif.C74_overflow
#print axioms Verif.C74_round_trip_partial
#print axioms Verif.C74_builds_exchange_partial
#print axioms Verif.C75_exactly_once_partial
#print axioms Verif.C75_at_most_once
#print axioms Verif.C75_leak
#print axioms Verif.C75_heap
#print axioms Verif.C75_destroyable
#print axioms Verif.C75_type
#print axioms Verif.C75_from_schema
#print axioms Verif.C75_view_native
#print axioms Verif.C75_view_serialized
#print axioms Verif.C75_no_view
#print axioms Verif.C75_visit_native
#print axioms Verif.C75_visit_wkb
#print axioms Verif.C75_visit_wkt
#print axioms Verif.C75_visit_allowed
#print axioms Verif.C75_copies
#print axioms Verif.C75_refused_mixes
#print axioms Verif.C76_safe
#print axioms Verif.C76_codes
#print axioms Verif.C76_contents_partial
#print axioms Verif.C76_lengths
#print axioms Verif.C76_finished_partial
#print axioms Verif.C76_failure_shows_nothing_new
#print axioms Verif.C76_held
#print axioms Verif.C76_leak
#print axioms Verif.C76_lost
#print axioms Verif.C76_finish_exposes
#print axioms Verif.C76_validity_lost
#print axioms Verif.C76_all_freed
#print axioms Verif.C76_coords_use_after_free
#print axioms Verif.C76_overrun
#print axioms Verif.C76_coords_safe_partial
#print axioms Verif.C76_coords_codes_partial
#print axioms Verif.C76_coords_finished_partial
#print axioms Verif.C77_safe_partial
#print axioms Verif.C77_safe_appends
#print axioms Verif.C77_codes
#print axioms Verif.C77_intact
#print axioms Verif.C77_enough
#print axioms Verif.C77_after_failure
#print axioms Verif.C77_no_nulls
#print axioms Verif.C77_lost
#print axioms Verif.C77_exposes
#print axioms Verif.C77_null_shown_valid
#print axioms Verif.C77_finish_retry
#print axioms Verif.C77_finish_crash
#print axioms Verif.C77_failed_finish_fills
#print axioms Verif.C77_refused_stays
#print axioms Verif.C77_refused_for_good
#print axioms Verif.C77_append_safe_partial
#print axioms Verif.C77_append_codes
#print axioms Verif.C77_append_intact
#print axioms Verif.C77_append_enough
#print axioms Verif.C77_append_after_failure_partial
#print axioms Verif.C77_append_no_nulls
#print axioms Verif.C77_append_shifts
#print axioms Verif.C78_safe
#print axioms Verif.C78_given_back_partial
#print axioms Verif.C78_nothing_left_partial
#print axioms Verif.C78_restart_leaks
#print axioms Verif.C78_unsupported_leaks
#print axioms Verif.C78_push_after_failed_start
#print axioms Verif.C79_picks
#print axioms Verif.C79_traits
#print axioms Verif.C79_compile_time
#print axioms Verif.C79_traits_serialized
#print axioms Verif.C79_view_types_misread
#print axioms Verif.C79_native
#print axioms Verif.C79_wkb
#print axioms Verif.C79_same_in_every_form
#print axioms Verif.C79_throws
#print axioms Verif.C80_made
#print axioms Verif.C80_make_fails
#print axioms Verif.C80_stored_as_said
#print axioms Verif.C80_round_trip
#print axioms Verif.C80_equal_means_same
#print axioms Verif.C80_with_metadata
#print axioms Verif.C80_with_parts
#print axioms Verif.C80_with_parts_refuted
#print axioms Verif.C80_with_geometry_type_refuted
#print axioms Verif.C80_make_ignores_metadata_of_data_type
#print axioms Verif.C80_register
#print axioms Verif.C80_imported
#print axioms Verif.C81_message_iff_rejected
#print axioms Verif.C81_could_have_gone_on
#print axioms Verif.C81_continued_text_is_read
#print axioms Verif.C81_mistake_is_there
#print axioms Verif.C81_no_continuation_is_read
#print axioms Verif.C82_safe_partial
#print axioms Verif.C82_safe_appends
#print axioms Verif.C82_callbacks_safe
#print axioms Verif.C82_codes
#print axioms Verif.C82_intact
#print axioms Verif.C82_enough
#print axioms Verif.C82_after_failure
#print axioms Verif.C82_no_nulls
#print axioms Verif.C82_lost
#print axioms Verif.C82_exposes
#print axioms Verif.C82_null_shown_valid
#print axioms Verif.C82_finish_retry
#print axioms Verif.C82_finish_crash
#print axioms Verif.C82_failed_finish_fills
#print axioms Verif.C82_refused_stays
#print axioms Verif.C82_refused_for_good
#print axioms Verif.C83_text
#print axioms Verif.C83_numbers
#print axioms Verif.C83_message
#print axioms Verif.C83_nothing_left
#print axioms Verif.C83_no_error_wanted
#print axioms Verif.C83_last_error
#print axioms Verif.C83_wkt_text
#print axioms Verif.C83_wkt_readable
#print axioms Verif.C83_exception
#print axioms Verif.C83_exception_safe
#print axioms Verif.C83_uninitialised
#print axioms Verif.C84_names
#print axioms Verif.C84_answers_partial
#print axioms Verif.C84_release_kept
#print axioms Verif.C84_private_data_unset
#print axioms Verif.C84_refused_rows_fill
#print axioms Verif.C85_valid_partial
#print axioms Verif.C85_trailing
#print axioms Verif.C85_type_refused
#print axioms Verif.C85_refused_by_both
#print axioms Verif.C85_words_partial
#print axioms Verif.C85_thousands
#print axioms Verif.C85_byte_order
#print axioms Verif.C85_differ
