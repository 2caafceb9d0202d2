{
 "claims": [
  {
   "property": "C01",
   "status": "proved",
   "theorems": [
    "Verif.C01_bswap32_reverses",
    "Verif.C01_bswap64_reverses",
    "Verif.C01_bswap32_involutive",
    "Verif.C01_bswap64_involutive"
   ],
   "note": "bswap32/64 reverse the in-memory bytes of every word and are involutions"
  },
  {
   "property": "C02",
   "status": "proved",
   "theorems": [
    "Verif.C02_split_then_make",
    "Verif.C02_make_then_split",
    "Verif.C02_make_injective",
    "Verif.C02_unspecified_parts",
    "Verif.C02_serialized_parts",
    "Verif.C02_extension_name",
    "Verif.C02_collection_makes_undocumented_type"
   ],
   "note": "split/make round trips over all documented identifiers and all valid part triples; also shows GEOMETRYCOLLECTION makes an undocumented identifier"
  },
  {
   "property": "C03",
   "status": "proved",
   "theorems": [
    "Verif.C03_created_types",
    "Verif.C03_view_of_created",
    "Verif.C03_storage_view_of_created",
    "Verif.C03_view_from_type"
   ],
   "note": "schemas can be created for exactly the documented types, and viewing one reports the same type, parts and extension name; also from storage and from the type"
  },
  {
   "property": "C04",
   "status": "partial",
   "theorems": [
    "Verif.C04_view_exact_partial",
    "Verif.C04_storage_view_exact_partial",
    "Verif.C04_accepted_layout_partial",
    "Verif.C04_size_wraps",
    "Verif.C04_missing_format",
    "Verif.C04_wkb_name_prefix"
   ],
   "note": "acceptance is characterised exactly (iff) for every schema tree whose columns have formats and whose list sizes are 32-bit; larger sizes wrap (C04_size_wraps) and a missing child format is undefined behaviour (C04_missing_format)"
  },
  {
   "property": "C05",
   "status": "proved",
   "theorems": [
    "Verif.C05_coord_view_copy",
    "Verif.C05_dimension_map"
   ],
   "note": "CoordViewCopy for every pair of dimension sets, layouts, offsets and row counts; dimension map by name"
  },
  {
   "property": "C06",
   "status": "partial",
   "theorems": [
    "Verif.C06_write_sequence_exact_partial",
    "Verif.C06_size_wraps"
   ],
   "note": "exact for sequences with fewer than 2^32 ordinates; the 32-bit size computation wraps beyond that (C06_size_wraps shows the failure)"
  },
  {
   "property": "C07",
   "status": "partial",
   "theorems": [
    "Verif.C07_copy_coords_partial",
    "Verif.C07_num_coords",
    "Verif.C07_swapped_fill_not_nan"
   ],
   "note": "exact when byte-swapped nodes have every requested dimension; otherwise the fill value is byte-swapped and is not NaN (C07_swapped_fill_not_nan)"
  },
  {
   "property": "C08",
   "status": "proved",
   "theorems": [
    "Verif.C08_sequence_chunks"
   ],
   "note": "chunking of VisitSequence for every length, stride and byte order"
  },
  {
   "property": "C09",
   "status": "proved",
   "theorems": [
    "Verif.C09_view_visit",
    "Verif.C09_recorded"
   ],
   "note": "VisitNode/ViewVisit traversal of every denoted geometry"
  },
  {
   "property": "C10",
   "status": "partial",
   "theorems": [
    "Verif.C10_success_implies_layout_partial",
    "Verif.C10_too_many_nodes",
    "Verif.C10_polygon_too_few_rings",
    "Verif.C10_too_few_nodes_reads_outside"
   ],
   "note": "success implies a well-formed layout and surplus nodes are rejected; too few nodes reads outside the node array (C10_too_few_nodes_reads_outside), so safe rejection fails"
  },
  {
   "property": "C11",
   "status": "proved",
   "theorems": [
    "Verif.C11_array_reader",
    "Verif.C11_native_visit",
    "Verif.C11_view_visit",
    "Verif.C11_error_verbatim",
    "Verif.C11_wkb_visit",
    "Verif.C11_wkb_reader_reusable",
    "Verif.C11_wkt_visit",
    "Verif.C11_wkt_reader_reusable"
   ],
   "note": "The geometry view visitor, the WKB reader, the WKT reader (both including reuse after any earlier use), visiting native arrays, and the array reader for all types. The WKT reader and so WKT arrays assume that the number parser rejects the empty word."
  },
  {
   "property": "C12",
   "status": "partial",
   "theorems": [
    "Verif.C12_read_valid_partial",
    "Verif.C12_long_ring_misread"
   ],
   "note": "every ISO/EWKB encoding, any mixture of byte orders and SRIDs, depth up to 255, input shorter than 2^35 bytes; beyond that the 32-bit product wraps (C12_long_ring_misread)"
  },
  {
   "property": "C13",
   "status": "partial",
   "theorems": [
    "Verif.C13_consumed_inside_partial",
    "Verif.C13_point_linestring_reads_inside_partial",
    "Verif.C13_count_overflow_reads_outside",
    "Verif.C13_truncated_reads_outside"
   ],
   "note": "the reader does not deduct coordinate bytes and its size product wraps, so unconditional safety is false (two witnesses); proved safe whenever the final cursor is inside the input and no product wraps"
  },
  {
   "property": "C14",
   "status": "proved",
   "theorems": [
    "Verif.C14_accepted_is_tree",
    "Verif.C14_visit_never_rejects"
   ],
   "note": "every accepted input gives one well-formed node tree with valid dimensions, and visiting it never produces an error of its own"
  },
  {
   "property": "C15",
   "status": "proved",
   "theorems": [
    "Verif.C15_parser_inside",
    "Verif.C15_view_inside",
    "Verif.C15_accounting",
    "Verif.C15_visit_inside"
   ],
   "note": "every byte string: the parser never reads outside, and every sequence of an accepted geometry lies inside the input, so visiting it is in bounds; accounting of consumed bytes"
  },
  {
   "property": "C16",
   "status": "partial",
   "theorems": [
    "Verif.C16_valid",
    "Verif.C16_too_many",
    "Verif.C16_too_few",
    "Verif.C16_srid",
    "Verif.C16_view_valid",
    "Verif.C16_view_truncates",
    "Verif.C16_view_truncates_witness"
   ],
   "note": "every valid encoding accepted exactly, every proper prefix and every extension rejected, SRIDs reported, for Parse(data, size, ...); the buffer-view overload narrows the size to 32 bits, so valid encodings of 2^32 bytes or more can be reported as too short (C16_view_truncates)"
  },
  {
   "property": "C17",
   "status": "proved",
   "theorems": [
    "Verif.C17_visitor_writes_iso",
    "Verif.C17_iso_is_wkb"
   ],
   "note": "visitor appends exactly the ISO encoding for every geometry tree (32-bit counts, 29 levels below the outermost) and every chunking; the encoding meets the independent WKB specification"
  },
  {
   "property": "C18",
   "status": "proved",
   "theorems": [
    "Verif.C18_append_equals_visit"
   ],
   "note": "Append and visitor leave identical output buffers whenever the data fits the array's 32-bit offsets; empty points included"
  },
  {
   "property": "C19",
   "status": "proved",
   "theorems": [
    "Verif.C19_write_read",
    "Verif.C19_without_empty_points"
   ],
   "note": "element i of the array finished after any history reads back as geometry i"
  },
  {
   "property": "C20",
   "status": "proved",
   "theorems": [
    "Verif.C20_history_array",
    "Verif.C20_overlong_reported"
   ],
   "note": "arbitrary histories of visitor features, visitor nulls, Append and AppendNull; overlong data is reported, never wrapped"
  },
  {
   "property": "C21",
   "status": "proved",
   "theorems": [
    "Verif.C21_reuse_after_finish"
   ],
   "note": "second history after Finish gives the same array as a new writer"
  },
  {
   "property": "C22",
   "status": "partial",
   "theorems": [
    "Verif.C22_geometry_features_safe_partial",
    "Verif.C22_geometry_after_error",
    "Verif.C22_geometry_unknown_dimensions",
    "Verif.C22_wkb_matched_closes_safe_partial",
    "Verif.C22_wkb_unopened_geometry_end",
    "Verif.C22_wkb_point_ring_end",
    "Verif.C22_wkb_null_before_start",
    "Verif.C22_wkt_calls_safe_partial",
    "Verif.C22_wkt_null_before_start",
    "Verif.C22_wkt_limit_before_start"
   ],
   "note": "WKB writer: safe for all features that close only what they opened; unmatched closes access uninitialised table entries (three witnesses). WKT writer: safe for every callback sequence that begins with a feature start, continuing after errors; without one, a null or a size limit makes it unsafe (two witnesses). Geometry builder: safe for features fed until the first error with known types and dimensions; continuing after the nesting error or unknown dimensions is unsafe (two witnesses)"
  },
  {
   "property": "C23",
   "status": "proved",
   "theorems": [
    "Verif.C23_writes_wkt"
   ],
   "note": "every geometry of at most 31 levels below the outermost, every chunking, both multipoint styles, every precision; number formatting is a parameter"
  },
  {
   "property": "C24",
   "status": "partial",
   "theorems": [
    "Verif.C24_stops_only_at_limit",
    "Verif.C24_feature_cut_partial",
    "Verif.C24_history_partial",
    "Verif.C24_limit_ignored_after_null"
   ],
   "note": "stops only with EAGAIN and only after the limit is reached; every element is a prefix of the full text, and exactly the text cut to the limit as long as no null was written since the last Finish. After a null the cut is skipped (C24_limit_ignored_after_null)"
  },
  {
   "property": "C25",
   "status": "proved",
   "theorems": [
    "Verif.C25_history_array",
    "Verif.C25_reuse_after_finish",
    "Verif.C25_overlong_reported"
   ],
   "note": "arbitrary histories of features and nulls; reuse after Finish; overlong data is reported, never wrapped"
  },
  {
   "property": "C26",
   "status": "proved",
   "theorems": [
    "Verif.C26_no_undefined_behaviour",
    "Verif.C26_safe_with_any_visitor"
   ],
   "note": "every byte string, every number parser rejecting the empty word, every earlier use of the reader; stack depth is not modelled"
  },
  {
   "property": "C27",
   "status": "partial",
   "theorems": [
    "Verif.C27_round_trip",
    "Verif.C27_round_trip_flat_partial",
    "Verif.C27_write_then_read_partial",
    "Verif.C27_mixed_flat_multipoint"
   ],
   "note": "every geometry tree in the nested style, for any printer/parser pair that round-trips on its ordinates; in the flat style a multipoint with both empty and other points is not read back (C27_mixed_flat_multipoint)"
  },
  {
   "property": "C28",
   "status": "proved",
   "theorems": [
    "Verif.C28_success",
    "Verif.C28_failure",
    "Verif.C28_complete",
    "Verif.C28_accepts_exactly_the_grammar",
    "Verif.C28_nul_ends_the_text"
   ],
   "note": "every text: success iff the grammar allows it and then exactly that geometry, failure always EINVAL after a prefix of a feature; NUL ends the text"
  },
  {
   "property": "C29",
   "status": "partial",
   "theorems": [
    "Verif.C29_spacing_partial",
    "Verif.C29_space_in_flat_multipoint"
   ],
   "note": "every insertion at a token boundary except right after the opening parenthesis of a flat multipoint (C29_space_in_flat_multipoint)"
  },
  {
   "property": "C30",
   "status": "partial",
   "theorems": [
    "Verif.C30_build_partial",
    "Verif.C30_nested_empties_lost",
    "Verif.C30_null_feature"
   ],
   "note": "every geometry tree up to the nesting limit, any chunking, any earlier state; geometries with members but no coordinate at all lose their members (C30_nested_empties_lost, for all of them)"
  },
  {
   "property": "C31",
   "status": "partial",
   "theorems": [
    "Verif.C31_deep_copy_partial",
    "Verif.C31_swapped_source"
   ],
   "note": "every view in native byte order; a copy of byte-swapped coordinates keeps the flag although the bytes were put in order (C31_swapped_source)"
  },
  {
   "property": "C32",
   "status": "partial",
   "theorems": [
    "Verif.C32_buffers_partial",
    "Verif.C32_coords_partial",
    "Verif.C32_reserved",
    "Verif.C32_mixed_use_overflows",
    "Verif.C32_misaligned_overflows",
    "Verif.C32_finished_partial",
    "Verif.C32_from_schema",
    "Verif.C32_from_made_schema"
   ],
   "note": "Every history of reserves, appends and checked appends, builders of every type, new or re-used. Not covered: coordinate buffers used both as bytes and as coordinates (C32_mixed_use_overflows shows an overflow), offset buffers with a number of bytes that is not a multiple of four (C32_misaligned_overflows)."
  },
  {
   "property": "C33",
   "status": "proved",
   "theorems": [
    "Verif.C33_finished",
    "Verif.C33_read",
    "Verif.C33_finish_succeeds"
   ],
   "note": "Six geometry types, all dimensions, both layouts, every history; C33_read goes through the array view, C33_finish_succeeds says when there is a finished array."
  },
  {
   "property": "C34",
   "status": "proved",
   "theorems": [
    "Verif.C34_array",
    "Verif.C34_round_trip",
    "Verif.C34_same",
    "Verif.C34_too_many"
   ],
   "note": "Six geometry types, all dimensions and layouts, every chunking, writers new or re-used; C34_round_trip goes through the reader. C34_too_many: with 2^31 coordinates or more the writer refuses."
  },
  {
   "property": "C35",
   "status": "partial",
   "theorems": [
    "Verif.C35_array_partial",
    "Verif.C35_round_trip_partial",
    "Verif.C35_same",
    "Verif.C35_too_many_vanish"
   ],
   "note": "Every list of views (any layout, byte order, dimensions, promotable types) and nulls up to 2^31 - 1 coordinates and nodes, new and re-used writers, through the array and the reader; C35_same: geometries of the type without empty parts are stored unchanged. Missing: more coordinates (C35_too_many_vanish: 2^32 coordinates are accepted and stored as an empty geometry) and byte-swapped views lacking a dimension."
  },
  {
   "property": "C36",
   "status": "partial",
   "theorems": [
    "Verif.C36_rejected_partial",
    "Verif.C36_only_these_partial",
    "Verif.C36_too_long_ring_leaks"
   ],
   "note": "Every reachable writer and every well-typed incompatible geometry of less than 2^32 coordinates leaves the writer unchanged; C36_only_these: nothing else is refused. Missing: a ring longer than 2^31 - 1 is refused after offsets were written (C36_too_long_ring_leaks)."
  },
  {
   "property": "C37",
   "status": "partial",
   "theorems": [
    "Verif.C37_own_coords_partial",
    "Verif.C37_accepted_partial",
    "Verif.C37_order_partial",
    "Verif.C37_collection_leaks",
    "Verif.C37_rejected_point_leaks",
    "Verif.C37_rejected_line_leaks",
    "Verif.C37_unfinished_leaks"
   ],
   "note": "Every accepted history of any features; for linestring and multipoint writers without collections. Collections there, and features after a rejected or unfinished one, do get coordinates of others: C37_collection_leaks, C37_rejected_point_leaks, C37_rejected_line_leaks, C37_unfinished_leaks."
  },
  {
   "property": "C38",
   "status": "proved",
   "theorems": [
    "Verif.C38_reader",
    "Verif.C38_visit_range",
    "Verif.C38_consecutive"
   ],
   "note": "All six native geometry types; every slicing at every level; views re-used after successful or failed use."
  },
  {
   "property": "C39",
   "status": "proved",
   "theorems": [
    "Verif.C39_reader",
    "Verif.C39_visit_boxes",
    "Verif.C39_other_dimensions"
   ],
   "note": "XY boxes; other dimensions are rejected with ENOTSUP before any callback (C39_other_dimensions)."
  },
  {
   "property": "C40",
   "status": "proved",
   "theorems": [
    "Verif.C40_box",
    "Verif.C40_bounds_unique"
   ],
   "note": "Batches of every type of array the reader accepts (native, boxes, WKB, WKT in all layouts), kernels new or re-used after any history whose last push succeeded."
  },
  {
   "property": "C41",
   "status": "proved",
   "theorems": [
    "Verif.C41_accepts",
    "Verif.C41_box_agg",
    "Verif.C41_batching"
   ],
   "note": "Any number of batches; C41_batching: the same array bit for bit, also when the same coordinates come in arrays of another type; C41_accepts: no push fails that the reader accepts."
  },
  {
   "property": "C42",
   "status": "proved",
   "theorems": [
    "Verif.C42_accepts",
    "Verif.C42_types",
    "Verif.C42_order"
   ],
   "note": "Any number of batches of every type of array; C42_order: the same array for the same set of features; C42_accepts: no push fails that the reader accepts."
  },
  {
   "property": "C43",
   "status": "partial",
   "theorems": [
    "Verif.C43_rows_of_the_failed_batch",
    "Verif.C43_refused_array_partial",
    "Verif.C43_rows_held_back",
    "Verif.C43_witness"
   ],
   "note": "The property is false: C43_rows_of_the_failed_batch says exactly which rows come first for WKB arrays, C43_witness is a concrete case. Proved where it holds: the failed array was refused before it was visited; C43_rows_held_back covers every other history: the batch's own rows always come last and are right."
  },
  {
   "property": "C44",
   "status": "partial",
   "theorems": [
    "Verif.C44_serialize_partial",
    "Verif.C44_backslashes",
    "Verif.C44_witness"
   ],
   "note": "proved for every view whose CRS has no backslash or is JSON; with backslashes in a quoted CRS the reported size exceeds the bytes written (C44_backslashes says by how much and what stays in the buffer, C44_witness)"
  },
  {
   "property": "C45",
   "status": "partial",
   "theorems": [
    "Verif.C45_schema",
    "Verif.C45_round_trip_partial",
    "Verif.C45_viewed",
    "Verif.C45_witness"
   ],
   "note": "proved for every edge and CRS type and every CRS that is a text without backslashes or a JSON object or string, and for every view of any metadata text (C45_viewed); a text with a backslash does not come back (C45_witness)"
  },
  {
   "property": "C46",
   "status": "partial",
   "theorems": [
    "Verif.C46_terminated_partial",
    "Verif.C46_only_bad_texts_read_behind",
    "Verif.C46_returns_partial",
    "Verif.C46_steps",
    "Verif.C46_hangs",
    "Verif.C46_reads_behind"
   ],
   "note": "proved: with one readable byte behind the text nothing else is read, texts without NUL return; a NUL inside an array or object hangs (C46_hangs), a text cut off after a colon, comma or value has the byte behind it read (C46_reads_behind)"
  },
  {
   "property": "C47",
   "status": "partial",
   "theorems": [
    "Verif.C47_by_length",
    "Verif.C47_names_partial",
    "Verif.C47_absent",
    "Verif.C47_empty",
    "Verif.C47_null",
    "Verif.C47_witness"
   ],
   "note": "the four names give their types for every well-formed object; 'exactly when' is false: the type is decided by the length of the value (C47_by_length, C47_witness)"
  },
  {
   "property": "C48",
   "status": "proved",
   "theorems": [
    "Verif.C48_unescape",
    "Verif.C48_length",
    "Verif.C48_other_escapes"
   ],
   "note": "every text, buffer size, and the null buffer"
  },
  {
   "property": "C49",
   "status": "proved",
   "theorems": [
    "Verif.C49_bitmap_records",
    "Verif.C49_append_run"
   ],
   "note": "byte-level model of ArrowBitsSetTo/bitmap append refines a list of bits"
  },
  {
   "property": "C50",
   "status": "proved",
   "theorems": [
    "Verif.C50_vertices",
    "Verif.C50_element",
    "Verif.C50_slice",
    "Verif.C50_array",
    "Verif.C50_validity",
    "Verif.C50_array_slice"
   ],
   "note": "nested list sequences of any depth, with validity bitmaps and slices"
  },
  {
   "property": "C51",
   "status": "proved",
   "theorems": [
    "Verif.C51_coordinates",
    "Verif.C51_lists",
    "Verif.C51_array",
    "Verif.C51_points",
    "Verif.C51_wkb"
   ],
   "note": "coordinate sequences, nested lists, nullable arrays, point and multipoint arrays, and parsed WKB"
  },
  {
   "property": "C52",
   "status": "partial",
   "theorems": [
    "Verif.C52_empty_partial",
    "Verif.C52_xyz_xym_not_empty"
   ],
   "note": "true of XY and XYZM boxes; false of XYZ and XYM boxes (C52_xyz_xym_not_empty)"
  },
  {
   "property": "C53",
   "status": "proved",
   "theorems": [
    "Verif.C53_wkb",
    "Verif.C53_wkt",
    "Verif.C53_wkb_geometries",
    "Verif.C53_wkt_geometries",
    "Verif.C53_accepted"
   ],
   "note": "All three layouts (32-bit offsets, 64-bit offsets, views) of both encodings, readers used before in any way; C53_accepted: arrays as the format describes them are accepted. C55_large_buffers_unchecked: too few buffers of a large array are read, not rejected."
  },
  {
   "property": "C54",
   "status": "proved",
   "theorems": [
    "Verif.C54_through_native",
    "Verif.C54_wkb"
   ],
   "note": "Every WKB array in every layout whose elements are null or ISO encodings of geometries of one type without empty parts, up to 2^31 - 1 bytes in total (the output has 32-bit offsets); C54_through_native: any readable input type."
  },
  {
   "property": "C55",
   "status": "partial",
   "theorems": [
    "Verif.C55_large_buffers_unchecked",
    "Verif.C55_native_exact_partial",
    "Verif.C55_native_accepted",
    "Verif.C55_box_exact_partial",
    "Verif.C55_serialized_buffers_unchecked",
    "Verif.C55_root_buffers_unchecked"
   ],
   "note": "Exact for native types and boxes given that buffers[0] exists; n_buffers is not checked for serialized arrays and at the root (witnesses C55_serialized_buffers_unchecked, C55_root_buffers_unchecked)."
  },
  {
   "property": "C56",
   "status": "partial",
   "theorems": [
    "Verif.C56_find",
    "Verif.C56_types",
    "Verif.C56_builder",
    "Verif.C56_owned",
    "Verif.C56_finish",
    "Verif.C56_range_unchecked"
   ],
   "note": "Numbering for every tree and every type; SetOwnedBuffer rejects indexes out of range. Reserve and append do not check the index (C56_range_unchecked)."
  },
  {
   "property": "C57",
   "status": "partial",
   "theorems": [
    "Verif.C57_default_build_partial",
    "Verif.C57_decimals",
    "Verif.C57_round_trip_partial",
    "Verif.C57_parser_exists",
    "Verif.C57_lost",
    "Verif.C57_tiny",
    "Verif.C57_negative_zero",
    "Verif.C57_wkt_round_trip_partial",
    "Verif.C57_wkt_default_partial"
   ],
   "note": "proved with the modelled Ryu printer and every correctly rounding parser for zero and all doubles from one half on, and for any double for which p decimals suffice; false for smaller doubles, tiny doubles and negative zero (C57_lost, C57_tiny, C57_negative_zero); C57_default_build_partial has the default printer and the default parser; the other theorems hold for every correct parser"
  },
  {
   "property": "C58",
   "status": "partial",
   "theorems": [
    "Verif.C58_bad_byte_order",
    "Verif.C58_short",
    "Verif.C58_bad_type_partial",
    "Verif.C58_bad_type_srid_partial",
    "Verif.C58_short_srid",
    "Verif.C58_header_alone",
    "Verif.C58_unknown_flags_accepted",
    "Verif.C58_undefined_thousands_accepted"
   ],
   "note": "short input and byte order marks completely; type words with any flags whose lower 24 bits end with three digits that are not a type, with and without SRID. Codes with an undefined thousands digit are accepted (C58_undefined_thousands_accepted), and so are unknown flag bits (C58_unknown_flags_accepted)"
  },
  {
   "property": "C59",
   "status": "proved",
   "theorems": [
    "Verif.C59_coord_cast"
   ],
   "note": "all sixteen pairs, every coordinate"
  },
  {
   "property": "C60",
   "status": "proved",
   "theorems": [
    "Verif.C60_bounds"
   ],
   "note": "every box array"
  },
  {
   "property": "C61",
   "status": "proved",
   "theorems": [
    "Verif.C61_vertices",
    "Verif.C61_edges",
    "Verif.C61_bad_element",
    "Verif.C61_slice"
   ],
   "note": "elements shorter than 2^32 bytes (longer ones: C16_view_truncates)"
  },
  {
   "property": "C62",
   "status": "proved",
   "theorems": [
    "Verif.C62_start",
    "Verif.C62_start_refused",
    "Verif.C62_native",
    "Verif.C62_wkb",
    "Verif.C62_wkt",
    "Verif.C62_in_memory",
    "Verif.C62_schema",
    "Verif.C62_metadata_from"
   ],
   "note": "Any input type, up to 2^31 - 1 bytes of output (WKB, WKT) or coordinates (native), WKB nesting up to 29 and WKT up to 31 levels."
  },
  {
   "property": "C63",
   "status": "partial",
   "theorems": [
    "Verif.C63_format_wkt",
    "Verif.C63_no_limit",
    "Verif.C63_limit"
   ],
   "note": "Proved without a limit, and with a limit up to the first null; after a null a text may be longer than the limit (then a prefix that is complete or no shorter than the limit): the defect is C24's."
  },
  {
   "property": "C64",
   "status": "proved",
   "theorems": [
    "Verif.C64_from_schema",
    "Verif.C64_from_made_schema",
    "Verif.C64_wkt",
    "Verif.C64_wkb",
    "Verif.C64_native",
    "Verif.C64_options"
   ],
   "note": "All writable types; WKT nesting up to 31 and WKB up to the writer's limit, 2^31 - 1 bytes or coordinates of output."
  },
  {
   "property": "C65",
   "status": "partial",
   "theorems": [
    "Verif.C65_outcome",
    "Verif.C65_precision_partial",
    "Verif.C65_witness"
   ],
   "note": "SetPrecision proved; SetFlatMultipoint is refuted: it sets the precision to 0 or 1 and leaves the style (C65_outcome, C65_witness)."
  },
  {
   "property": "C66",
   "status": "proved",
   "theorems": [
    "Verif.C66_text",
    "Verif.C66_length",
    "Verif.C66_error",
    "Verif.C66_writer_precision"
   ],
   "note": "of the modelled Ryu printer (default build)"
  },
  {
   "property": "C67",
   "status": "proved",
   "theorems": [
    "Verif.C67_with_geometry_type",
    "Verif.C67_with_dimensions",
    "Verif.C67_with_coord_type",
    "Verif.C67_simple_multi",
    "Verif.C67_schema",
    "Verif.C67_storage",
    "Verif.C67_metadata",
    "Verif.C67_to_string",
    "Verif.C67_not_storable_witness",
    "Verif.C67_short_limit_witness"
   ],
   "note": "for CRSs that are objects or strings of JSON or texts without backslashes, and for every CRS that came from a metadata text; others are refuted (C67_not_storable_witness). ToString for documented types and limits of at least five characters."
  },
  {
   "property": "C68",
   "status": "proved",
   "theorems": [
    "Verif.C68_names",
    "Verif.C68_start",
    "Verif.C68_box",
    "Verif.C68_box_agg",
    "Verif.C68_types",
    "Verif.C68_format_wkt",
    "Verif.C68_to_native",
    "Verif.C68_to_wkb",
    "Verif.C68_to_wkt",
    "Verif.C68_finish_scalar",
    "Verif.C68_validates_wkt",
    "Verif.C68_validates_wkb",
    "Verif.C68_visit",
    "Verif.C68_void",
    "Verif.C68_restart",
    "Verif.C68_push_before_start",
    "Verif.C68_finish_before_start",
    "Verif.C68_push_after_failed_start",
    "Verif.C68_refused_start_switches"
   ],
   "note": "for kernels started once; schemas with formats and 32-bit sizes, option type absent or a number, extension metadata without NUL that are not read behind (C46). What happens otherwise: C68_restart (unique_geometry_types_agg keeps the types of before), C68_push_before_start, C68_finish_before_start, C68_push_after_failed_start (undefined behaviour), C68_refused_start_switches."
  },
  {
   "property": "C69",
   "status": "proved",
   "theorems": [
    "Verif.C69_reads",
    "Verif.C69_range",
    "Verif.C69_exact",
    "Verif.C69_words",
    "Verif.C69_total",
    "Verif.C69_machine_exists",
    "Verif.C69_correct",
    "Verif.C69_trailing",
    "Verif.C69_plus"
   ],
   "note": "for texts of less than 2^27 characters (C69_total: all texts), of the modelled fast_float (C69_reads, C69_range, C69_words, C69_trailing); the machine's multiplication and division are assumed to follow IEEE 754 (Ieee, shown satisfiable in both modes)."
  },
  {
   "property": "C70",
   "status": "proved",
   "theorems": [
    "Verif.C70_exactly_once",
    "Verif.C70_held_or_freed",
    "Verif.C70_reason",
    "Verif.C70_accepted",
    "Verif.C70_heap",
    "Verif.C70_wrapped",
    "Verif.C70_shown",
    "Verif.C70_other_buffers",
    "Verif.C70_finished",
    "Verif.C70_empty_not_finished",
    "Verif.C70_refused_growth"
   ],
   "note": "malloc never fails; release build (in a debug build growing memory that was handed over aborts). Arrays are released once by their consumer. C70_empty_not_finished and C70_refused_growth show what a builder does with empty memory and with memory asked to grow: the memory is still given back once."
  },
  {
   "property": "C71",
   "status": "proved",
   "theorems": [
    "Verif.C71_accepted",
    "Verif.C71_leading",
    "Verif.C71_vertices",
    "Verif.C71_edges",
    "Verif.C71_fewer",
    "Verif.C71_axes_confused",
    "Verif.C71_coords",
    "Verif.C71_boxes",
    "Verif.C71_wkb"
   ],
   "note": "values are doubles. Only the number of ordinates is compared, as documented: XYM is accepted for XYZ and the other way round and the third ordinate then has the wrong name (C71_axes_confused). Edges with CoordDst = Coord, the only instantiation that compiles."
  },
  {
   "property": "C72",
   "status": "partial",
   "theorems": [
    "Verif.C72_positions",
    "Verif.C72_coordinates",
    "Verif.C72_lists",
    "Verif.C72_blobs",
    "Verif.C72_dimension_positions",
    "Verif.C72_ordinates",
    "Verif.C72_subscript_partial",
    "Verif.C72_subscript_ignores_stride",
    "Verif.C72_interleaved",
    "Verif.C72_separated",
    "Verif.C72_unaligned",
    "Verif.C72_unaligned_ordinates",
    "Verif.C72_unaligned_positions",
    "Verif.C72_post_increment_reads_a_byte",
    "Verif.C72_unaligned_init",
    "Verif.C72_unaligned_pointers"
   ],
   "note": "false of it[k] for the ordinates of one dimension unless the stride is one (C72_subscript_ignores_stride), and of it++ for those of unaligned sequences (C72_post_increment_reads_a_byte); everything else proved. Comparisons of ordinate iterators for positive strides."
  },
  {
   "property": "C73",
   "status": "partial",
   "theorems": [
    "Verif.C73_history_partial",
    "Verif.C73_appended",
    "Verif.C73_room",
    "Verif.C73_freed",
    "Verif.C73_no_memory",
    "Verif.C73_failure_loses_nodes",
    "Verif.C73_failure_leaks",
    "Verif.C73_negative_size",
    "Verif.C73_size_wraps",
    "Verif.C73_copy",
    "Verif.C73_interleaved",
    "Verif.C73_separated"
   ],
   "note": "false of calls after a failed allocation (C73_failure_loses_nodes, C73_failure_leaks), of negative sizes (C73_negative_size) and of sizes beyond 2^57 (C73_size_wraps); everything else proved for histories of sizes below 2^56."
  },
  {
   "property": "C74",
   "status": "partial",
   "theorems": [
    "Verif.C74_libc_exists",
    "Verif.C74_prints",
    "Verif.C74_prints_large",
    "Verif.C74_prints_short",
    "Verif.C74_precision_zero",
    "Verif.C74_precision_zero_nothing",
    "Verif.C74_reads",
    "Verif.C74_accepts",
    "Verif.C74_infinity",
    "Verif.C74_too_long",
    "Verif.C74_trailing",
    "Verif.C74_plus",
    "Verif.C74_overflow",
    "Verif.C74_round_trip_partial",
    "Verif.C74_builds_exchange_partial"
   ],
   "note": "false with precision zero: whole numbers lose the zeros at their end, zero itself vanishes (C74_precision_zero, C74_precision_zero_nothing); everything else proved for every C library that meets LibcOk. Values of hexadecimal numbers and of nan are not described."
  },
  {
   "property": "C75",
   "status": "partial",
   "theorems": [
    "Verif.C75_exactly_once_partial",
    "Verif.C75_at_most_once",
    "Verif.C75_leak",
    "Verif.C75_heap",
    "Verif.C75_destroyable",
    "Verif.C75_type",
    "Verif.C75_from_schema",
    "Verif.C75_view_native",
    "Verif.C75_view_serialized",
    "Verif.C75_no_view",
    "Verif.C75_visit_native",
    "Verif.C75_visit_wkb",
    "Verif.C75_visit_wkt",
    "Verif.C75_visit_allowed",
    "Verif.C75_copies",
    "Verif.C75_refused_mixes"
   ],
   "note": "false of an array that is followed by another: it is never released (C75_leak); false of copies, which the class allows: the second destructor frees freed memory (C75_copies); nothing holds of what a reader shows after it refused an array (C75_refused_mixes). Everything else proved, for histories without copies in which every array is moved or released by the client at most once and the client keeps borrowed arrays while they are read."
  },
  {
   "property": "C76",
   "status": "partial",
   "theorems": [
    "Verif.C76_safe",
    "Verif.C76_codes",
    "Verif.C76_contents_partial",
    "Verif.C76_lengths",
    "Verif.C76_finished_partial",
    "Verif.C76_failure_shows_nothing_new",
    "Verif.C76_held",
    "Verif.C76_leak",
    "Verif.C76_lost",
    "Verif.C76_finish_exposes",
    "Verif.C76_validity_lost",
    "Verif.C76_all_freed",
    "Verif.C76_coords_use_after_free",
    "Verif.C76_overrun",
    "Verif.C76_coords_safe_partial",
    "Verif.C76_coords_codes_partial",
    "Verif.C76_coords_finished_partial"
   ],
   "note": "false of the buffer for which a call failed: its contents are replaced by those of fresh memory at the next growth (C76_lost) or when the array is finished (C76_finish_exposes), a bitmap is dropped (C76_validity_lost), a finished array may have less memory than it says (C76_overrun), and the old block leaks (C76_leak); false of coordinates: after a failure the next coordinate may be written to freed memory (C76_coords_use_after_free). Everything else proved for calls on buffers: safety, codes, lengths, the contents of all other buffers, and no leaks without a failure. Calls on coordinates: safety, codes and the contents of finished arrays proved for every history in which calls on buffers and finishes may fail but no call on coordinates did (C76_coords_*_partial). Failures inside nanoarrow's structures for the next array are not modelled."
  },
  {
   "property": "C77",
   "status": "partial",
   "theorems": [
    "Verif.C77_safe_partial",
    "Verif.C77_safe_appends",
    "Verif.C77_codes",
    "Verif.C77_intact",
    "Verif.C77_enough",
    "Verif.C77_after_failure",
    "Verif.C77_no_nulls",
    "Verif.C77_lost",
    "Verif.C77_exposes",
    "Verif.C77_null_shown_valid",
    "Verif.C77_finish_retry",
    "Verif.C77_finish_crash",
    "Verif.C77_failed_finish_fills",
    "Verif.C77_refused_stays",
    "Verif.C77_refused_for_good",
    "Verif.C77_append_safe_partial",
    "Verif.C77_append_codes",
    "Verif.C77_append_intact",
    "Verif.C77_append_enough",
    "Verif.C77_append_after_failure_partial",
    "Verif.C77_append_no_nulls",
    "Verif.C77_append_shifts"
   ],
   "note": "false of features accepted before a failure: they are shown with other bytes or with bytes that are not there, although finish returns 0 (C77_lost, C77_exposes); false of nulls: a refused bitmap shows later nulls as valid and fresh memory as bits of earlier ones (C77_null_shown_valid); refused features stay as empty elements (C77_refused_stays); a refused finish makes later features empty (C77_finish_retry), may write through a null pointer (C77_finish_crash) or fill the array although it failed (C77_failed_finish_fills). Proved: safety but for that finish, codes, nothing lost as long as no append fails, bytes of everything accepted after a failure, no nulls where none were fed; also with geometry views appended, where a refused view (unlike a refused feature) makes later elements wrong (C77_append_shifts). Whether refused blocks are freed is not modelled."
  },
  {
   "property": "C78",
   "status": "partial",
   "theorems": [
    "Verif.C78_safe",
    "Verif.C78_given_back_partial",
    "Verif.C78_nothing_left_partial",
    "Verif.C78_restart_leaks",
    "Verif.C78_unsupported_leaks",
    "Verif.C78_push_after_failed_start"
   ],
   "note": "false of a kernel that is started twice: the first reader is lost (C78_restart_leaks); false of as_geoarrow asked for a large or view type: the writer is lost (C78_unsupported_leaks); a batch pushed to an as_geoarrow kernel whose start failed makes it follow a null pointer (C78_push_after_failed_start, excluded from the allowed histories). Safety proved for all allowed histories, giving everything back for those without second starts and unsupported types"
  },
  {
   "property": "C79",
   "status": "partial",
   "theorems": [
    "Verif.C79_picks",
    "Verif.C79_traits",
    "Verif.C79_compile_time",
    "Verif.C79_traits_serialized",
    "Verif.C79_view_types_misread",
    "Verif.C79_native",
    "Verif.C79_wkb",
    "Verif.C79_same_in_every_form",
    "Verif.C79_throws"
   ],
   "note": "false of TypeTraits of the view types: nothing is specialised for them, and WKB_VIEW is taken for multilinestrings, WKT_VIEW for multipolygons (C79_view_types_misread); everything else proved. Edges with the coordinate type of the class."
  },
  {
   "property": "C80",
   "status": "partial",
   "theorems": [
    "Verif.C80_made",
    "Verif.C80_make_fails",
    "Verif.C80_stored_as_said",
    "Verif.C80_round_trip",
    "Verif.C80_equal_means_same",
    "Verif.C80_with_metadata",
    "Verif.C80_with_parts",
    "Verif.C80_with_parts_refuted",
    "Verif.C80_with_geometry_type_refuted",
    "Verif.C80_make_ignores_metadata_of_data_type",
    "Verif.C80_register",
    "Verif.C80_imported"
   ],
   "note": "false of WithCoordType, WithDimensions and WithGeometryType: they keep the storage type of the type before (C80_with_parts_refuted, C80_with_geometry_type_refuted) and throw where a failure should be returned (C80_with_parts); false of RegisterAll: WKT and boxes are left out (C80_imported); an extension type made from a data type loses its edge type and CRS (C80_make_ignores_metadata_of_data_type). Everything else proved, assuming that Arrow C++ exports what it imported so that it is viewed alike."
  },
  {
   "property": "C81",
   "status": "proved",
   "theorems": [
    "Verif.C81_message_iff_rejected",
    "Verif.C81_could_have_gone_on",
    "Verif.C81_continued_text_is_read",
    "Verif.C81_mistake_is_there",
    "Verif.C81_no_continuation_is_read"
   ],
   "note": "the message as a value (what was expected, byte); its text is in C83. Callbacks of the visitor are taken to succeed. Number parser as a parameter that does not accept the empty text. A point list that begins with white space, as in MULTIPOINT ( 1 2), is rejected with a message about that white space (an example beside the theorems), in line with the grammar of C28, which leaves such texts out"
  },
  {
   "property": "C82",
   "status": "partial",
   "theorems": [
    "Verif.C82_safe_partial",
    "Verif.C82_safe_appends",
    "Verif.C82_callbacks_safe",
    "Verif.C82_codes",
    "Verif.C82_intact",
    "Verif.C82_enough",
    "Verif.C82_after_failure",
    "Verif.C82_no_nulls",
    "Verif.C82_lost",
    "Verif.C82_exposes",
    "Verif.C82_null_shown_valid",
    "Verif.C82_finish_retry",
    "Verif.C82_finish_crash",
    "Verif.C82_failed_finish_fills",
    "Verif.C82_refused_stays",
    "Verif.C82_refused_for_good"
   ],
   "note": "false of features accepted before a failure: they are shown with the text of others or with bytes that are not there, although finish returns 0 (C82_lost, C82_exposes); false of nulls: a refused bitmap shows later nulls as valid and fresh memory as bits of earlier ones (C82_null_shown_valid); refused features stay as empty elements (C82_refused_stays); a refused finish makes later features empty (C82_finish_retry), may write through a null pointer (C82_finish_crash) or fill the array although it failed (C82_failed_finish_fills). Proved: safety but for that finish, also for callbacks that go on after failures, codes, nothing lost as long as no append fails, texts of everything accepted after a failure, no nulls where none were fed. The size limit after nulls as in C24. Whether refused blocks are freed is not modelled."
  },
  {
   "property": "C83",
   "status": "proved",
   "theorems": [
    "Verif.C83_text",
    "Verif.C83_numbers",
    "Verif.C83_message",
    "Verif.C83_nothing_left",
    "Verif.C83_no_error_wanted",
    "Verif.C83_last_error",
    "Verif.C83_wkt_text",
    "Verif.C83_wkt_readable",
    "Verif.C83_exception",
    "Verif.C83_exception_safe",
    "Verif.C83_uninitialised"
   ],
   "note": "formats as lists of pieces (text, %s, %d/%ld/%u/%lu, %.*s), vsnprintf after the C standard; texts of 2^31 bytes or more, for which vsnprintf fails, are excluded. The macro itself reads beyond the message if given an uninitialised error and a call that fails without setting it (C83_uninitialised); the wrappers of the library initialise theirs. The variant with GEOARROW_DEBUG, which adds file and line, is not modelled. Callbacks of the visitor are taken to succeed"
  },
  {
   "property": "C84",
   "status": "partial",
   "theorems": [
    "Verif.C84_names",
    "Verif.C84_answers_partial",
    "Verif.C84_release_kept",
    "Verif.C84_private_data_unset",
    "Verif.C84_refused_rows_fill"
   ],
   "note": "false of releasing: neither functions nor factory set their release pointer to NULL as documented (C84_release_kept); a refused number of rows leaves an array that must be released although the call failed (C84_refused_rows_fill). Not a violation, but worth knowing: the private data of a new function is not set (C84_private_data_unset). Arguments are ignored by the function and are plain lists in the model; allocation succeeds"
  },
  {
   "property": "C85",
   "status": "partial",
   "theorems": [
    "Verif.C85_valid_partial",
    "Verif.C85_trailing",
    "Verif.C85_type_refused",
    "Verif.C85_refused_by_both",
    "Verif.C85_words_partial",
    "Verif.C85_thousands",
    "Verif.C85_byte_order",
    "Verif.C85_differ"
   ],
   "note": "valid encodings below 2^35 bytes and up to 255 levels, with or without bytes behind them; type words that mean nothing are refused by the C reader always, by both if bits 16 to 23 are clear and the last three digits are no type; words that mix the thousands digits of ISO and the flags of EWKB mean the same to both (C85_words_partial: without SRID, shown by geometries without parts). Elsewhere they differ: an undefined thousands digit (C85_thousands), a byte order mark other than 0 and 1 (C85_byte_order), and bytes both accept as different geometries (C85_differ)."
  }
 ]
}