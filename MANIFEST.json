{
 "claims": [
  {
   "property": "C01",
   "status": "proved",
   "theorems": [
    "Verif.Ebml.C01_size_roundtrip"
   ],
   "note": ""
  },
  {
   "property": "C02",
   "status": "proved",
   "theorems": [
    "Verif.Ebml.C02_forced_size_roundtrip"
   ],
   "note": ""
  },
  {
   "property": "C03",
   "status": "partial",
   "theorems": [
    "Verif.Ebml.C03_all_sizes_writable_partial",
    "Verif.Ebml.C03_all_sizes_writable_counterexample"
   ],
   "note": "the code violates it: automatic lengths stop at 5 bytes; exact characterisation proved"
  },
  {
   "property": "C04",
   "status": "partial",
   "theorems": [
    "Verif.Ebml.C04_unknown_unambiguous_partial",
    "Verif.Ebml.C04_unknown_unambiguous_counterexample"
   ],
   "note": "the code violates it at sizes of 2^35-1 and above"
  },
  {
   "property": "C05",
   "status": "proved",
   "theorems": [
    "Verif.Ebml.C05_decode_bounded"
   ],
   "note": ""
  },
  {
   "property": "C06",
   "status": "proved",
   "theorems": [
    "Verif.Ebml.C06_canonical"
   ],
   "note": ""
  },
  {
   "property": "C07",
   "status": "proved",
   "theorems": [
    "Verif.Ebml.C07_signed_roundtrip"
   ],
   "note": ""
  },
  {
   "property": "C08",
   "status": "partial",
   "theorems": [
    "Verif.Ebml.C08_signed_any_length_partial",
    "Verif.Ebml.C08_signed_any_length_counterexample",
    "Verif.Ebml.C08_signed_natural_counterexample"
   ],
   "note": "the code violates it; exact condition proved"
  },
  {
   "property": "C09",
   "status": "proved",
   "theorems": [
    "Verif.Ebml.C09_minimal_length"
   ],
   "note": ""
  },
  {
   "property": "C10",
   "status": "proved",
   "theorems": [
    "Verif.Ebml.C10_id_roundtrip"
   ],
   "note": ""
  },
  {
   "property": "C11",
   "status": "proved",
   "theorems": [
    "Verif.Ebml.C11_unsigned_roundtrip",
    "Verif.Ebml.C11_unsigned_roundtrip_auto"
   ],
   "note": ""
  },
  {
   "property": "C12",
   "status": "partial",
   "theorems": [
    "Verif.Ebml.C12_signed_roundtrip_partial",
    "Verif.Ebml.C12_signed_roundtrip_counterexample",
    "Verif.Ebml.C12_signed_roundtrip_unsigned_char"
   ],
   "note": "false where plain char is signed; exact extent of the failure proved, and the full round trip where char is unsigned"
  },
  {
   "property": "C13",
   "status": "proved",
   "theorems": [
    "Verif.Ebml.C13_unsigned_minimal",
    "Verif.Ebml.C13_signed_minimal",
    "Verif.Ebml.C13_requested_minimum"
   ],
   "note": ""
  },
  {
   "property": "C14",
   "status": "proved",
   "theorems": [
    "Verif.Ebml.C14_float_bits"
   ],
   "note": "the float/double conversion itself is a parameter"
  },
  {
   "property": "C15",
   "status": "proved",
   "theorems": [
    "Verif.Ebml.C15_date_roundtrip"
   ],
   "note": ""
  },
  {
   "property": "C16",
   "status": "proved",
   "theorems": [
    "Verif.Ebml.C16_crc_is_crc32"
   ],
   "note": ""
  },
  {
   "property": "C17",
   "status": "proved",
   "theorems": [
    "Verif.Ebml.C17_crc_chunking"
   ],
   "note": ""
  },
  {
   "property": "C18",
   "status": "proved",
   "theorems": [
    "Verif.Ebml.C18_written_checksum_verifies"
   ],
   "note": "little-endian build; also the converse (verifies only for equal CRC-32)"
  },
  {
   "property": "C19",
   "status": "proved",
   "theorems": [
    "Verif.Ebml.C19_burst_detected",
    "Verif.Ebml.C19_four_bytes_detected"
   ],
   "note": ""
  },
  {
   "property": "C20",
   "status": "partial",
   "theorems": [
    "Verif.Ebml.C20_void_full_size_counterexample",
    "Verif.Ebml.C20_void_full_size_partial"
   ],
   "note": "False at size-field boundaries (127-129, 16383-16386, ...); the exact set and the exact result are proved."
  },
  {
   "property": "C21",
   "status": "partial",
   "theorems": [
    "Verif.Ebml.C21_void_replace_counterexample",
    "Verif.Ebml.C21_void_replace_partial"
   ],
   "note": "False for every non-zero gap; the exact span of the filler is proved."
  },
  {
   "property": "C22",
   "status": "partial",
   "theorems": [
    "Verif.Ebml.C22_announced_size_counterexample",
    "Verif.Ebml.C22_default_value_counterexample",
    "Verif.Ebml.C22_announced_size_partial",
    "Verif.Ebml.C22_operations_partial"
   ],
   "note": "Holds for every coherent tree of any shape; false after changing a string/binary child of an already updated master (two witnesses)."
  },
  {
   "property": "C23",
   "status": "partial",
   "theorems": [
    "Verif.Ebml.Scan.C23_round_trip_counterexample",
    "Verif.Ebml.Scan.C23_document_loads_partial",
    "Verif.Ebml.Scan.C23_round_trip_partial",
    "Verif.Ebml.Scan.C23_values_partial",
    "Verif.Ebml.Scan.C23_document_position_partial"
   ],
   "note": "false for masters of unknown size followed by a sibling (and for values C12/C14 lose); proved for every conforming tree of known sizes whose leaf values survive"
  },
  {
   "property": "C24",
   "status": "proved",
   "theorems": [
    "Verif.Ebml.Scan.C24_head_found",
    "Verif.Ebml.Scan.C24_head_found_unknown"
   ],
   "note": "known and unknown sizes"
  },
  {
   "property": "C25",
   "status": "proved",
   "theorems": [
    "Verif.Ebml.Scan.C25_window_safe"
   ],
   "note": ""
  },
  {
   "property": "C26",
   "status": "partial",
   "theorems": [
    "Verif.Ebml.Scan.C26_inside_parent_counterexample",
    "Verif.Ebml.Scan.C26_inside_parent_partial"
   ],
   "note": "false in the code (the head is not counted); the excess is bounded by the head, 12 bytes"
  },
  {
   "property": "C27",
   "status": "proved",
   "theorems": [
    "Verif.Ebml.Scan.C27_terminates"
   ],
   "note": ""
  },
  {
   "property": "C28",
   "status": "partial",
   "theorems": [
    "Verif.Ebml.Probe.C28_probe_safe_counterexample",
    "Verif.Ebml.Probe.C28_probe_safe_partial"
   ],
   "note": "false in the code; exact characterisation of the overflow"
  },
  {
   "property": "C29",
   "status": "partial",
   "theorems": [
    "Verif.Mkv.C29_header_round_trip_counterexample",
    "Verif.Mkv.C29_header_round_trip_partial"
   ],
   "note": "False for an empty block at the end of the file (reader needs five bytes); proved whenever a byte follows or the track number takes two bytes."
  },
  {
   "property": "C30",
   "status": "proved",
   "theorems": [
    "Verif.Mkv.C30_xiph_round_trip"
   ],
   "note": "1 to 256 frames of any int32 size, any following bytes."
  },
  {
   "property": "C31",
   "status": "partial",
   "theorems": [
    "Verif.Mkv.C31_ebml_round_trip_counterexample",
    "Verif.Mkv.C31_ebml_round_trip_partial"
   ],
   "note": "False from 4 GiB on; proved below 4 GiB."
  },
  {
   "property": "C32",
   "status": "partial",
   "theorems": [
    "Verif.Mkv.C32_fixed_round_trip_counterexample",
    "Verif.Mkv.C32_fixed_round_trip_huge_counterexample",
    "Verif.Mkv.C32_fixed_round_trip_partial"
   ],
   "note": "False for more than 256 frames and from 4 GiB on; proved otherwise."
  },
  {
   "property": "C33",
   "status": "partial",
   "theorems": [
    "Verif.Mkv.C33_auto_lossless_counterexample",
    "Verif.Mkv.C33_auto_lossless_partial"
   ],
   "note": "False with compression (fixed lacing chosen from uncompressed sizes); proved when equal lengths stay equal under the encoding, in particular without encoding and with header stripping."
  },
  {
   "property": "C34",
   "status": "proved",
   "theorems": [
    "Verif.Mkv.C34_announced_size"
   ],
   "note": "Every encoding, lacing, track number and frame list."
  },
  {
   "property": "C35",
   "status": "partial",
   "theorems": [
    "Verif.Mkv.C35_lace_fits_counterexample",
    "Verif.Mkv.C35_lace_fits_ebml_counterexample",
    "Verif.Mkv.C35_lace_fits_partial"
   ],
   "note": "False for Xiph and EBML; exact condition for Xiph, EBML below 2^27 and fixed proved."
  },
  {
   "property": "C36",
   "status": "partial",
   "theorems": [
    "Verif.Mkv.C36_frame_count_counterexample",
    "Verif.Mkv.C36_frame_count_partial"
   ],
   "note": "False above 256 frames; the count read is exactly the count written modulo 256."
  },
  {
   "property": "C37",
   "status": "partial",
   "theorems": [
    "Verif.Mkv.C37_strip_counterexample",
    "Verif.Mkv.C37_strip_short_counterexample",
    "Verif.Mkv.C37_strip_partial"
   ],
   "note": "False for encodings not covering blocks and for frames shorter than the header; proved otherwise."
  },
  {
   "property": "C38",
   "status": "partial",
   "theorems": [
    "Verif.Mkv.C38_sizes_add_up_counterexample",
    "Verif.Mkv.C38_sizes_add_up_partial",
    "Verif.Mkv.C38_truncated_lace_hangs",
    "Verif.Mkv.C38_single_ebml_lace_out_of_bounds"
   ],
   "note": "False: sizes are not validated; proved exact characterisation."
  },
  {
   "property": "C39",
   "status": "partial",
   "theorems": [
    "Verif.Mkv.C39_block_time_counterexample",
    "Verif.Mkv.C39_block_time_partial",
    "Verif.Mkv.C39_track_scale_counterexample"
   ],
   "note": "False once the block has reported its time (it keeps reporting the cached time) and for track scales below 1; exact characterisation proved."
  },
  {
   "property": "C40",
   "status": "partial",
   "theorems": [
    "Verif.Mkv.C40_move_counterexample",
    "Verif.Mkv.C40_move_partial",
    "Verif.Mkv.C40_unlinked_block_refused"
   ],
   "note": "False when the block is detached first; proved for direct moves."
  },
  {
   "property": "C41",
   "status": "proved",
   "theorems": [
    "Verif.Mkv.C41_frame_times",
    "Verif.Mkv.C41_unknown_times"
   ],
   "note": "Durations known and times within 64 bits."
  },
  {
   "property": "C42",
   "status": "proved",
   "theorems": [
    "Verif.Mkv.C42_cue_lookup",
    "Verif.Mkv.C42_void_counterexample"
   ],
   "note": "Every sorted cue list; with a Void among the cue points the search ends there."
  },
  {
   "property": "C43",
   "status": "proved",
   "theorems": [
    "Verif.Mkv.C43_cue_order"
   ],
   "note": ""
  },
  {
   "property": "C44",
   "status": "partial",
   "theorems": [
    "Verif.Mkv.C44_attachments_counterexample",
    "Verif.Mkv.C44_attachments_counterexample2",
    "Verif.Mkv.C44_blocks_counterexample",
    "Verif.Mkv.C44_blocks_counterexample2",
    "Verif.Mkv.C44_cluster_counterexample",
    "Verif.Mkv.C44_cluster_counterexample2",
    "Verif.Mkv.C44_mixed_children_counterexample",
    "Verif.Mkv.C44_blocks_partial",
    "Verif.Mkv.C44_attachments_partial",
    "Verif.Mkv.C44_cluster_partial"
   ],
   "note": "All three orders are inconsistent; proved on the elements where they are consistent."
  },
  {
   "property": "C45",
   "status": "partial",
   "theorems": [
    "Verif.Core.C45_array_operations_partial",
    "Verif.Core.C45_out_of_range",
    "Verif.Core.C45_counterexample",
    "Verif.Core.C45_equality"
   ],
   "note": "false for ranges beyond the contents: insert and delete then copy about 2^64 bytes (counterexample). Proved for every history of operations and allocation outcomes that stays within the contents; the exact limit is a theorem. Size computations near 2^64 are not modelled."
  },
  {
   "property": "C46",
   "status": "proved",
   "theorems": [
    "Verif.Core.C46_capacity"
   ],
   "note": "every history, every allocation outcome"
  },
  {
   "property": "C47",
   "status": "proved",
   "theorems": [
    "Verif.Core.C47_sort_permutes",
    "Verif.Core.C47_needs_reflexive"
   ],
   "note": "quicksort on indices (median of three, partition, recursion), insertion sort on indices"
  },
  {
   "property": "C48",
   "status": "proved",
   "theorems": [
    "Verif.Core.C48_sort_orders"
   ],
   "note": ""
  },
  {
   "property": "C49",
   "status": "proved",
   "theorems": [
    "Verif.Core.C49_binary_search",
    "Verif.Core.C49_search_is_safe",
    "Verif.Core.C49_linear_search"
   ],
   "note": ""
  },
  {
   "property": "C50",
   "status": "proved",
   "theorems": [
    "Verif.Core.C50_sorted_set",
    "Verif.Core.C50_results",
    "Verif.Core.C50_elements_as_bytes"
   ],
   "note": ""
  },
  {
   "property": "C51",
   "status": "proved",
   "theorems": [
    "Verif.Core.C51_fifo_is_a_queue",
    "Verif.Core.C51_fifo_conserves"
   ],
   "note": ""
  },
  {
   "property": "C52",
   "status": "partial",
   "theorems": [
    "Verif.Core.C52_memory_read_partial",
    "Verif.Core.C52_without_offset",
    "Verif.Core.C52_counterexample"
   ],
   "note": "Every history without a seek below the virtual offset, in particular every history on a stream without offset; with an offset, a seek below it makes the position wrap and the next read starts before the block."
  },
  {
   "property": "C53",
   "status": "partial",
   "theorems": [
    "Verif.Core.C53_memory_write_partial",
    "Verif.Core.C53_counterexample"
   ],
   "note": "Every write that asks for the number of bytes written; a write with a NULL Written pointer crashes."
  },
  {
   "property": "C54",
   "status": "proved",
   "theorems": [
    "Verif.Core.C54_buffered_reads"
   ],
   "note": "Every contents and sequence of read sizes."
  },
  {
   "property": "C55",
   "status": "partial",
   "theorems": [
    "Verif.Core.C55_buffered_writes_partial",
    "Verif.Core.C55_no_failures",
    "Verif.Core.C55_counterexample_memory_stream",
    "Verif.Core.C55_counterexample_failing_close"
   ],
   "note": "Every sequence of writes and every pattern of failures, for a stream underneath that accepts a NULL Written and a last flush that succeeds; with a memory stream underneath the flush crashes, and a failing flush on closing loses bytes silently."
  },
  {
   "property": "C56",
   "status": "partial",
   "theorems": [
    "Verif.NodeTree.C56_tree_well_formed_partial",
    "Verif.NodeTree.C56_counterexample_detached",
    "Verif.NodeTree.C56_counterexample_foreign"
   ],
   "note": "Every history of calls whose Before is a sibling and whose new parent is not inside the node; MoveBefore on a detached node crashes and a foreign Before is accepted and mixes the lists."
  },
  {
   "property": "C57",
   "status": "proved",
   "theorems": [
    "Verif.NodeTree.C57_child_order",
    "Verif.NodeTree.C57_move_order",
    "Verif.NodeTree.C57_detach"
   ],
   "note": "Every history as in C56, every position."
  },
  {
   "property": "C58",
   "status": "proved",
   "theorems": [
    "Verif.Core.C58_bounded_copy",
    "Verif.Core.C58_bounded_append"
   ],
   "note": ""
  },
  {
   "property": "C59",
   "status": "proved",
   "theorems": [
    "Verif.Core.C59_compare_ignoring_case",
    "Verif.Core.C59_compare_value"
   ],
   "note": ""
  },
  {
   "property": "C60",
   "status": "proved",
   "theorems": [
    "Verif.Core.C60_fourcc_round_trip",
    "Verif.Core.C60_fourcc_upper"
   ],
   "note": "Exact set of codes that round trip."
  },
  {
   "property": "C61",
   "status": "proved",
   "theorems": [
    "Verif.Conv.C61_utf8_round_trip"
   ],
   "note": "All code points below 0x110000, any continuation, any room."
  },
  {
   "property": "C62",
   "status": "proved",
   "theorems": [
    "Verif.Conv.C62_code_page_bytes",
    "Verif.Conv.C62_code_page_characters"
   ],
   "note": "All eight tables evaluated by the kernel; the second theorem is for every character number."
  },
  {
   "property": "C63",
   "status": "partial",
   "theorems": [
    "Verif.Conv.C63_bounded_and_terminated_partial",
    "Verif.Conv.C63_utf16_page_counterexample",
    "Verif.Conv.C63_overlong_nul_counterexample"
   ],
   "note": "Holds for all pages but UTF-16 and UTF-32 (NULL functions) and for text without overlong NUL."
  },
  {
   "property": "C64",
   "status": "proved",
   "theorems": [
    "Verif.Lzo.C64_writes_in_bounds"
   ],
   "note": "Every input, memory and capacity; also that the call ends."
  },
  {
   "property": "C65",
   "status": "partial",
   "theorems": [
    "Verif.Lzo.C65_reads_in_bounds_partial",
    "Verif.Lzo.C65_memory_behind_irrelevant",
    "Verif.Lzo.C65_reads_in_bounds_counterexample"
   ],
   "note": "False: the zero scan of a length ignores the end of the input. At most one byte behind is read if that byte is not 0."
  },
  {
   "property": "C66",
   "status": "proved",
   "theorems": [
    "Verif.Lzo.C66_literals_restored"
   ],
   "note": "Both forms of literal runs."
  },
  {
   "property": "C67",
   "status": "partial",
   "theorems": [
    "Verif.Path.C67_path_reduction_partial",
    "Verif.Path.C67_ends_or_repeats",
    "Verif.Path.C67_result_clean",
    "Verif.Path.C67_path_reduction_counterexample",
    "Verif.Path.C67_dots_counterexample"
   ],
   "note": "Exact: ends with the resolved path iff every parent reference has a name before it (after the host); otherwise loops forever."
  },
  {
   "property": "C68",
   "status": "partial",
   "theorems": [
    "Verif.Printf.C68_counterexample",
    "Verif.Printf.C68_output_within_buffer_partial"
   ],
   "note": "False as stated: right-aligned strings and characters that do not fit, %r and a trailing % break it. Proved for all other formats without floats."
  },
  {
   "property": "C69",
   "status": "partial",
   "theorems": [
    "Verif.Ebml.C69_host_order_counterexample",
    "Verif.Ebml.C69_host_order_partial"
   ],
   "note": "false: a big-endian build stores the bytes reversed; exact characterisation proved"
  },
  {
   "property": "C70",
   "status": "proved",
   "theorems": [
    "Verif.Ebml.Scan.C70_found_is_there"
   ],
   "note": ""
  },
  {
   "property": "C71",
   "status": "partial",
   "theorems": [
    "Verif.Ebml.Scan.C71_never_crashes_counterexample",
    "Verif.Ebml.Scan.C71_checksum_counterexample",
    "Verif.Ebml.Scan.C71_late_checksum_counterexample",
    "Verif.Ebml.Scan.C71_no_crash_partial",
    "Verif.Ebml.Scan.C23_document_loads_partial"
   ],
   "note": "false in the code (three witnesses); proved for all bytes without size fields of the unknown kind when no checksums are verified, or only the outermost ones and not in memory; conformant documents of known sizes load without a crash"
  },
  {
   "property": "C72",
   "status": "partial",
   "theorems": [
    "Verif.Mkv.C72_retime_counterexample",
    "Verif.Mkv.C72_retime_partial"
   ],
   "note": "False for blocks whose time was not asked for before and for offsets that no longer fit; both characterised."
  },
  {
   "property": "C73",
   "status": "partial",
   "theorems": [
    "Verif.Mkv.C73_file_time_counterexample",
    "Verif.Mkv.C73_file_time_partial",
    "Verif.Mkv.C73_read_time"
   ],
   "note": "False: up to two ticks; bounds proved."
  },
  {
   "property": "C74",
   "status": "partial",
   "theorems": [
    "Verif.Mkv.C74_get_frame_counterexample",
    "Verif.Mkv.C74_get_frame_partial",
    "Verif.Mkv.C74_frame_outside_block"
   ],
   "note": "False only for blocks whose frames are all empty."
  },
  {
   "property": "C75",
   "status": "proved",
   "theorems": [
    "Verif.Core.C75_list_index"
   ],
   "note": ""
  },
  {
   "property": "C76",
   "status": "partial",
   "theorems": [
    "Verif.Core.C76_append_string_partial",
    "Verif.Core.C76_counterexample"
   ],
   "note": "false when memory runs out while merging: the terminator is already gone (counterexample); everything else proved"
  },
  {
   "property": "C77",
   "status": "proved",
   "theorems": [
    "Verif.Core.C77_fifo_tail"
   ],
   "note": ""
  },
  {
   "property": "C78",
   "status": "partial",
   "theorems": [
    "Verif.Core.C78_sort_is_stable_partial",
    "Verif.Core.C78_counterexample"
   ],
   "note": "false for more than 17 pointers (counterexample); proved for at most 17 elements and for every other element size"
  },
  {
   "property": "C79",
   "status": "partial",
   "theorems": [
    "Verif.Mkv.C79_cues",
    "Verif.Mkv.C79_children_kept_partial",
    "Verif.Mkv.C79_counterexample"
   ],
   "note": "false for 18 attachments without a name or 18 Timestamp children (counterexample: reads before the list); proved for cues, and for all lists of at most 17 children"
  },
  {
   "property": "C80",
   "status": "proved",
   "theorems": [
    "Verif.Mkv.C80_cues_sorted"
   ],
   "note": ""
  },
  {
   "property": "C81",
   "status": "proved",
   "theorems": [
    "Verif.Core.C81_memory_seek"
   ],
   "note": "Every history as in C52; the offset must not be undershot (C52_counterexample shows what happens otherwise)."
  },
  {
   "property": "C82",
   "status": "proved",
   "theorems": [
    "Verif.Core.C82_skip"
   ],
   "note": "Every amount and contents."
  },
  {
   "property": "C83",
   "status": "partial",
   "theorems": [
    "Verif.Core.C83_counterexample"
   ],
   "note": "False: both directions share one buffer. C54 and C55 hold for streams used in one direction only."
  },
  {
   "property": "C84",
   "status": "partial",
   "theorems": [
    "Verif.NodeTree.C84_no_cycles_partial",
    "Verif.NodeTree.C84_counterexample"
   ],
   "note": "Holds when no node is attached to itself or below itself; the code does not check, and clearing such a cycle uses freed memory."
  },
  {
   "property": "C85",
   "status": "proved",
   "theorems": [
    "Verif.NodeTree.C85_delete"
   ],
   "note": "Every history as in C56."
  },
  {
   "property": "C86",
   "status": "proved",
   "theorems": [
    "Verif.NodeTree.C86_parents_marked"
   ],
   "note": "Every history as in C56."
  },
  {
   "property": "C87",
   "status": "partial",
   "theorems": [
    "Verif.NodeTree.C87_counterexample"
   ],
   "note": "False: clearing detaches the element from its parent, and reading a master clears it first."
  },
  {
   "property": "C88",
   "status": "proved",
   "theorems": [
    "Verif.Conv.C88_page_to_utf8_and_back"
   ],
   "note": ""
  },
  {
   "property": "C89",
   "status": "proved",
   "theorems": [
    "Verif.Conv.C89_utf8_utf16_round_trip",
    "Verif.Conv.C89_page_utf16_round_trip",
    "Verif.Conv.C89_utf16_bounded"
   ],
   "note": ""
  },
  {
   "property": "C90",
   "status": "partial",
   "theorems": [
    "Verif.Conv.C90_cut_is_prefix_partial",
    "Verif.Conv.C90_utf8_counterexample",
    "Verif.Conv.C90_utf16_counterexample"
   ],
   "note": "True for 8-bit results; false for UTF-8 (a character that does not fit is skipped) and UTF-16 (its low 16 bits are stored)."
  },
  {
   "property": "C91",
   "status": "proved",
   "theorems": [
    "Verif.Lzo.C91_format_decoded"
   ],
   "note": ""
  },
  {
   "property": "C92",
   "status": "partial",
   "theorems": [
    "Verif.Lzo.C92_lzo_frame_partial",
    "Verif.Lzo.C92_lzo_frame_counterexample"
   ],
   "note": "The output buffer is max(2048, 4 x size); frames that expand more are rejected."
  },
  {
   "property": "C93",
   "status": "partial",
   "theorems": [
    "Verif.Printf.C93_documented_text",
    "Verif.Printf.C93_counterexample"
   ],
   "note": "Proved within the ranges of InRange; outside of them false, witnesses given."
  },
  {
   "property": "C94",
   "status": "partial",
   "theorems": [
    "Verif.Printf.C94_append",
    "Verif.Printf.C94_counterexample"
   ],
   "note": "Proved within the ranges of InRange."
  },
  {
   "property": "C95",
   "status": "proved",
   "theorems": [
    "Verif.Ebml.Master.C95_visits_every_child"
   ],
   "note": "lookup by ID as in the code; creation may fail only for want of fuel, excluded by C96_creation_ends"
  },
  {
   "property": "C96",
   "status": "partial",
   "theorems": [
    "Verif.Ebml.Master.C96_created_complete_counterexample",
    "Verif.Ebml.Master.C96_created_complete_partial",
    "Verif.Ebml.Master.C96_creation_ends"
   ],
   "note": "a mandatory child that may be repeated is not created (SeekHead without Seek); exact characterisation of the complete ones, and termination for the whole Matroska table"
  },
  {
   "property": "C97",
   "status": "proved",
   "theorems": [
    "Verif.Ebml.Master.C97_adds_exactly_missing"
   ],
   "note": "for every schema with distinct IDs and a rank for its mandatory nesting; both proved of the Matroska table"
  },
  {
   "property": "C98",
   "status": "proved",
   "theorems": [
    "Verif.Ebml.Master.C98_check_is_exact"
   ],
   "note": ""
  },
  {
   "property": "C99",
   "status": "partial",
   "theorems": [
    "Verif.Ebml.Master.C99_profile_check_counterexample",
    "Verif.Ebml.Master.C99_no_cue_reference_passes",
    "Verif.Ebml.Master.C99_profile_check_partial"
   ],
   "note": "mandatory children are asked for even where the profile disables them, so that no CueReference passes; what the check reports is characterised exactly"
  },
  {
   "property": "C100",
   "status": "partial",
   "theorems": [
    "Verif.Ebml.Master.C100_removal_counterexample",
    "Verif.Ebml.Master.C100_removal_partial"
   ],
   "note": "the child after a removed first child is stepped over; all others are checked"
  },
  {
   "property": "C101",
   "status": "proved",
   "theorems": [
    "Verif.Ebml.Master.C101_no_filler_left"
   ],
   "note": ""
  },
  {
   "property": "C102",
   "status": "proved",
   "theorems": [
    "Verif.Ebml.Master.C102_check_ends"
   ],
   "note": ""
  },
  {
   "property": "C103",
   "status": "proved",
   "theorems": [
    "Verif.Ebml.Master.C103_ids_recognised"
   ],
   "note": ""
  },
  {
   "property": "C104",
   "status": "partial",
   "theorems": [
    "Verif.Ebml.Master.C104_matroska_round_trip_partial"
   ],
   "note": "without blocks (C136 has them) and masters of unknown size, and with the restrictions of C23"
  },
  {
   "property": "C105",
   "status": "proved",
   "theorems": [
    "Verif.Ebml.Scan.C105_loading_ends"
   ],
   "note": "the number of nested steps is bounded by twice the number of bytes; the recursion depth is bounded by the file only"
  },
  {
   "property": "C106",
   "status": "proved",
   "theorems": [
    "Verif.Ebml.Scan.C106_loaded_is_typed"
   ],
   "note": ""
  },
  {
   "property": "C107",
   "status": "proved",
   "theorems": [
    "Verif.Ebml.Scan.C107_live_document_loads",
    "Verif.Ebml.Scan.C107_live_round_trip",
    "Verif.Ebml.Scan.C107_live_values"
   ],
   "note": ""
  },
  {
   "property": "C108",
   "status": "proved",
   "theorems": [
    "Verif.Ebml.Scan.C108_truncated_document",
    "Verif.Ebml.Scan.C108_truncated_no_crash",
    "Verif.Ebml.Scan.C108_truncated_file"
   ],
   "note": "without checksum verification (depth 0); with it see C71"
  },
  {
   "property": "C109",
   "status": "partial",
   "theorems": [
    "Verif.Mkv.C109_frames_stay_partial",
    "Verif.Mkv.C109_read_and_release",
    "Verif.Mkv.C109_write_link_counterexample",
    "Verif.Mkv.C109_write_only_counterexample",
    "Verif.Mkv.C109_empty_encodings_counterexample"
   ],
   "note": "Holds for every sequence of calls when the track keeps its frames as they are, and otherwise when the first link is for reading and writing, as MATROSKA_LinkClusterBlocks makes it. False otherwise: linking for reading and later for writing adds the length of the stripped header twice, linking for writing only follows a NULL pointer, and so does an empty ContentEncodings."
  },
  {
   "property": "C110",
   "status": "partial",
   "theorems": [
    "Verif.Mkv.C110_seek_partial",
    "Verif.Mkv.C110_written_blocks",
    "Verif.Mkv.C110_seek_counterexample",
    "Verif.Mkv.C110_seek_strip_counterexample",
    "Verif.Mkv.C110_no_such_frame"
   ],
   "note": "Exact characterisation. False for an unlaced block whose small track number is stored in two bytes and for laces of tracks with a stripped header; right for uncompressed blocks the library wrote."
  },
  {
   "property": "C111",
   "status": "partial",
   "theorems": [
    "Verif.Mkclean.C111_cues_settle",
    "Verif.Mkclean.C111_unlinked_counterexample"
   ],
   "note": "proved for CuePoints that are linked to a block, with a bound of 7n+2 passes; a CuePoint that could not be linked is dereferenced (counterexample)"
  },
  {
   "property": "C112",
   "status": "partial",
   "theorems": [
    "Verif.Mkclean.C112_remux_keeps_frames",
    "Verif.Mkclean.C112_in_order",
    "Verif.Mkclean.C112_single_block",
    "Verif.Mkclean.C112_single_block_counterexample",
    "Verif.Mkclean.C112_disorder_counterexample",
    "Verif.Mkclean.C112_empty_block_counterexample",
    "Verif.Mkclean.C112_late_counterexample"
   ],
   "note": "proved for blocks with frames, at least two blocks in the main track and keyframe times in order; each condition is needed (counterexamples)"
  },
  {
   "property": "C113",
   "status": "partial",
   "theorems": [
    "Verif.Mkv.C113_seek_entry",
    "Verif.Mkv.C113_entry_size",
    "Verif.Mkv.C113_seek_id_bounds",
    "Verif.Mkv.C113_seek_id_counterexample"
   ],
   "note": "updated entries are right for all IDs, positions and children; reading a SeekID from a file goes beyond its data exactly when its lead byte announces more bytes than it has (characterised, counterexample)"
  },
  {
   "property": "C114",
   "status": "partial",
   "theorems": [
    "Verif.Ebml.C114_copy_renders_alike_partial",
    "Verif.Ebml.C114_unknown_size_counterexample",
    "Verif.Ebml.C114_unset_string_counterexample",
    "Verif.Ebml.C114_copy_exact"
   ],
   "note": "proved for trees without unknown sizes and with strings that have a value; both conditions are needed (counterexamples)"
  },
  {
   "property": "C115",
   "status": "partial",
   "theorems": [
    "Verif.NodeData.C115_values_read_back",
    "Verif.NodeData.C115_ids_collide_counterexample",
    "Verif.NodeData.C115_references_partial"
   ],
   "note": "all sequences of stores for ids below 2^(w-8), w the width of uint_fast32_t; larger ids collide (counterexample for 32 bits); references are miscounted exactly when a stored reference is replaced by another (characterised)"
  },
  {
   "property": "C116",
   "status": "partial",
   "theorems": [
    "Verif.Notify.C116_notification_partial",
    "Verif.Notify.C116_one_removal_is_careful",
    "Verif.Notify.C116_release_counterexample",
    "Verif.Notify.C116_receivers_counterexample",
    "Verif.Notify.C116_leak_counterexample"
   ],
   "note": "exact: right for all programs whose callbacks do not unregister themselves and then the next listener in one call, undefined behaviour for all others; deleting the node while it notifies is not modelled"
  },
  {
   "property": "C117",
   "status": "partial",
   "theorems": [
    "Verif.Mkv.C117_durations_partial",
    "Verif.Mkv.C117_durations_exact",
    "Verif.Mkv.C117_reads_inside_exact",
    "Verif.Mkv.C117_drift",
    "Verif.Mkv.C117_long_dts_counterexample",
    "Verif.Mkv.C117_ac3_counterexample",
    "Verif.Mkv.C117_short_frame_counterexample"
   ],
   "note": "The heads that are misread are named exactly: DTS above 2048 samples (bit shifted by 7 instead of 6), AC-3 of bsid below 8 or a reserved rate, AAC without a positive rate. Frames shorter than their head are read beyond the data. Vorbis is not modelled."
  },
  {
   "property": "C118",
   "status": "proved",
   "theorems": [
    "Verif.Mkclean.C118_longest_common_header",
    "Verif.Mkclean.C118_frames_come_back"
   ],
   "note": "Compressed and unreadable blocks are skipped, as in the code. The block limits are those of C33."
  },
  {
   "property": "C119",
   "status": "partial",
   "theorems": [
    "Verif.Mkv.C119_shortest_lace_partial",
    "Verif.Mkv.C119_shortest_lace_counterexample"
   ],
   "note": "Holds for one frame, equal frames and pairs of frames. Fails for three frames of 1, 100 and 5 bytes: the estimate for EBML lacing subtracts the last difference instead of the last size."
  },
  {
   "property": "C120",
   "status": "partial",
   "theorems": [
    "Verif.Mkclean.C120_scale_partial",
    "Verif.Mkclean.C120_scale_counterexample",
    "Verif.Mkclean.C120_cluster_times_partial",
    "Verif.Mkclean.C120_cluster_times_counterexample"
   ],
   "note": "False as stated: a TimestampScale of 0 hangs, and with Cues or a single Cluster the Timestamps keep the old ticks under the new scale. The partial theorems characterise both exactly. Remuxed and live output not covered."
  },
  {
   "property": "C121",
   "status": "partial",
   "theorems": [
    "Verif.Mkclean.C121_cues_partial",
    "Verif.Mkclean.C121_cues_counterexample"
   ],
   "note": "False when the scale changes: Cues are looked up with the new scale. Proved for an unchanged scale, and a Cue naming no block uses a null pointer."
  },
  {
   "property": "C122",
   "status": "proved",
   "theorems": [
    "Verif.Mkclean.C122_new_cues"
   ],
   "note": ""
  },
  {
   "property": "C123",
   "status": "partial",
   "theorems": [
    "Verif.Mkclean.C123_ascending_partial",
    "Verif.Mkclean.C123_ticks_counterexample",
    "Verif.Mkclean.C123_ordered_unchanged"
   ],
   "note": "Times ascend always; Timestamps only where the times are whole ticks."
  },
  {
   "property": "C124",
   "status": "proved",
   "theorems": [
    "Verif.Tremor.C124_bits_in_order"
   ],
   "note": "Requests of up to 32 bits, as the comments in the code demand."
  },
  {
   "property": "C125",
   "status": "partial",
   "theorems": [
    "Verif.Mkvalidator.C125_verdict_partial",
    "Verif.Mkvalidator.C125_status_counterexample",
    "Verif.Mkvalidator.C125_valid_counterexample"
   ],
   "note": "Exact characterisation of exit status and verdict; the property as stated is false: six error codes are dropped and codes divisible by 256 give status 0."
  },
  {
   "property": "C126",
   "status": "partial",
   "theorems": [
    "Verif.Mkvalidator.C126_video_partial",
    "Verif.Mkvalidator.C126_video_counterexample",
    "Verif.Mkvalidator.C126_warning_counterexample"
   ],
   "note": "Exact characterisation for sizes below 2^31; not always ending: a display height of zero divides by zero; the warning threshold is off by one in Matroska files."
  },
  {
   "property": "C127",
   "status": "partial",
   "theorems": [
    "Verif.Mkvalidator.C127_ends_partial",
    "Verif.Mkvalidator.C127_ends_counterexample",
    "Verif.Mkvalidator.C127_tracks_counterexample",
    "Verif.Mkvalidator.C126_video_counterexample"
   ],
   "note": "Proved under conditions on track numbers, shown sizes and the presence of Tracks; false without them."
  },
  {
   "property": "C128",
   "status": "partial",
   "theorems": [
    "Verif.Mkvalidator.C128_start_partial",
    "Verif.Mkvalidator.C128_start_counterexample",
    "Verif.Mkvalidator.C128_unknown_counterexample"
   ],
   "note": "Exact characterisation of all four messages; a Cluster without any keyframe and a track number one above the highest are not reported."
  },
  {
   "property": "C129",
   "status": "partial",
   "theorems": [
    "Verif.Mkvalidator.C129_lacing_partial",
    "Verif.Mkvalidator.C129_lacing_counterexample"
   ],
   "note": "Exact for TrackNumbers below 32768; false from there on."
  },
  {
   "property": "C130",
   "status": "partial",
   "theorems": [
    "Verif.Mkvalidator.C130_seek_partial",
    "Verif.Mkvalidator.C130_second_counterexample",
    "Verif.Mkvalidator.C130_cluster_counterexample"
   ],
   "note": "Exact characterisation; the place of the second SeekHead, and Cluster entries without Clusters, are not checked."
  },
  {
   "property": "C131",
   "status": "partial",
   "theorems": [
    "Verif.Mkvalidator.C131_places_partial",
    "Verif.Mkvalidator.C131_places_counterexample"
   ],
   "note": "Exact characterisation; PrevSize is compared with the distance of the Clusters, so other elements between them turn the verdict around."
  },
  {
   "property": "C132",
   "status": "partial",
   "theorems": [
    "Verif.Mkvalidator.C132_cues_partial",
    "Verif.Mkvalidator.C132_cues_counterexample"
   ],
   "note": "Exact for tracks below 32768 and times in the 64-bit range; false for tracks from 32768 on."
  },
  {
   "property": "C133",
   "status": "partial",
   "theorems": [
    "Verif.Mkvalidator.C133_void_partial",
    "Verif.Mkvalidator.C133_void_counterexample"
   ],
   "note": "A warning is always justified, and exact if Voids stand in the Segment itself; counterexample: of several Voids in one element only the last (and what follows) counts."
  },
  {
   "property": "C134",
   "status": "proved",
   "theorems": [
    "Verif.Mkvalidator.C134_tracks"
   ],
   "note": "Exact characterisation of all errors and of the warning on letter case."
  },
  {
   "property": "C135",
   "status": "partial",
   "theorems": [
    "Verif.Mkvalidator.C135_clean_partial"
   ],
   "note": "For TrackNumbers below 32768 and cue points in range, without --live and --quick; see C129 and C132 for the counterexamples beyond."
  },
  {
   "property": "C136",
   "status": "partial",
   "theorems": [
    "Verif.Ebml.Master.C136_document_round_trip_partial"
   ],
   "note": "Documents with blocks and segment UIDs; partial because it keeps the restrictions of C23 (known sizes, values their payload keeps) and C33 (up to 256 frames, 4 GiB; the remaining cases have counterexamples there). Element loading treats a block as its bytes; the block reader is applied to them with arbitrary bytes behind."
  },
  {
   "property": "C137",
   "status": "partial",
   "theorems": [
    "Verif.Mkv.C137_private_kept_partial",
    "Verif.Mkv.C137_private_kept_counterexample",
    "Verif.Mkv.C137_incompressible_counterexample",
    "Verif.Mkv.C137_new_track_counterexample",
    "Verif.Mkv.C137_other_algorithm_counterexample",
    "Verif.Mkv.C137_unwritable_kept",
    "Verif.Mkv.C137_damaged_kept"
   ],
   "note": "False in general: data that zlib lengthens is read out of bounds, empty data hangs, a new TrackEntry announces zlib for plain data, and going from zlib to an algorithm that is not written announces it for plain data. Proved for all call sequences from tracks read from a file otherwise."
  },
  {
   "property": "C138",
   "status": "proved",
   "theorems": [
    "Verif.Mkv.C138_block_compression"
   ],
   "note": ""
  },
  {
   "property": "C139",
   "status": "partial",
   "theorems": [
    "Verif.Mkclean.Tracks.C139_aspect_ratio_partial",
    "Verif.Mkclean.Tracks.C139_aspect_ratio_counterexample"
   ],
   "note": "False: a display size equal to the pixels is deleted although a crop changes the default. Proved for sizes without crop, or whose display sizes stay."
  },
  {
   "property": "C140",
   "status": "partial",
   "theorems": [
    "Verif.Mkclean.Tracks.C140_crop_partial",
    "Verif.Mkclean.Tracks.C140_crop_counterexample",
    "Verif.Mkclean.Tracks.C140_small_display_counterexample"
   ],
   "note": "False: crops are dropped for aspect ratios and small displays. Exact condition proved."
  },
  {
   "property": "C141",
   "status": "partial",
   "theorems": [
    "Verif.Mkclean.Tracks.C141_display_size_partial",
    "Verif.Mkclean.Tracks.C141_display_size_counterexample"
   ],
   "note": "False: 1280x720 for 1920x1080 is dropped. Exact condition proved."
  },
  {
   "property": "C142",
   "status": "partial",
   "theorems": [
    "Verif.Mkclean.Tracks.C142_clean_twice_partial",
    "Verif.Mkclean.Tracks.C142_clean_twice_counterexample"
   ],
   "note": "False with a crop; proved without one."
  },
  {
   "property": "C143",
   "status": "proved",
   "theorems": [
    "Verif.Mkclean.Tracks.C143_fit_tracks"
   ],
   "note": "For every list of tracks the cleaning of which succeeds."
  },
  {
   "property": "C144",
   "status": "partial",
   "theorems": [
    "Verif.Mkclean.Tracks.C144_new_sources",
    "Verif.Mkclean.Tracks.C144_crash_counterexample"
   ],
   "note": "False for tracks numbered 0, without pixel sizes, with a sampling frequency of 0 or (WebM) without codec: mkclean crashes. Proved exactly for all other lists of tracks; look for pictures without crop."
  },
  {
   "property": "C145",
   "status": "proved",
   "theorems": [
    "Verif.Mkclean.Tracks.C145_distinct"
   ],
   "note": "By an invariant over the loop and its restarts."
  },
  {
   "property": "C146",
   "status": "partial",
   "theorems": [
    "Verif.Mkclean.Tracks.C146_planes_partial",
    "Verif.Mkclean.Tracks.C146_planes_counterexample",
    "Verif.Mkclean.Tracks.C146_own_planes_counterexample"
   ],
   "note": "False when a track that is named is removed. Proved for complete tracks, outside WebM."
  },
  {
   "property": "C147",
   "status": "proved",
   "theorems": [
    "Verif.Mkclean.Tracks.C147_main_track"
   ],
   "note": "For every list of tracks with types and numbers."
  },
  {
   "property": "C148",
   "status": "proved",
   "theorems": [
    "Verif.Mkclean.Tracks.C148_ends"
   ],
   "note": "All values, by a weight that falls with each restart."
  },
  {
   "property": "C149",
   "status": "partial",
   "theorems": [
    "Verif.Mkclean.Tracks.C149_old_stereo_partial",
    "Verif.Mkclean.Tracks.C149_old_stereo_counterexample"
   ],
   "note": "False: with two eyes in the file, a picture with both eyes becomes mono. Proved for files without such a pair."
  },
  {
   "property": "C150",
   "status": "partial",
   "theorems": [
    "Verif.Mkclean.Link.C150_blocks_of_tracks_partial",
    "Verif.Mkclean.Link.C150_keep",
    "Verif.Mkclean.Link.C150_empty_encodings_counterexample"
   ],
   "note": "Holds if no track has an empty ContentEncodings, which makes the code use a null pointer."
  },
  {
   "property": "C151",
   "status": "partial",
   "theorems": [
    "Verif.Mkclean.Link.C151_mkclean_blocks_partial",
    "Verif.Mkclean.Link.C151_write_link_keeps"
   ],
   "note": "Excludes empty ContentEncodings (C150) and track numbers of 2^31-1 and more (C152)."
  },
  {
   "property": "C152",
   "status": "partial",
   "theorems": [
    "Verif.Mkclean.Link.C152_lacing_flag_partial",
    "Verif.Mkclean.Link.C152_number_counterexample",
    "Verif.Mkclean.Link.C152_type_counterexample"
   ],
   "note": "Holds for typed tracks with numbers below 2^31-1, without --alt-3d; false for huge numbers (table read out of bounds) and for tracks without type."
  },
  {
   "property": "C153",
   "status": "partial",
   "theorems": [
    "Verif.Url.C153_split_joins_partial",
    "Verif.Url.C153_fragment_ignored",
    "Verif.Url.C153_root_counterexample",
    "Verif.Url.C153_long_fragment_counterexample"
   ],
   "note": "Proved for all paths which are no http address with a fragment, up to the delimiter of the root directory, which is lost; long fragments end in an invalid access."
  },
  {
   "property": "C154",
   "status": "partial",
   "theorems": [
    "Verif.Url.C154_clean_name_partial",
    "Verif.Url.C154_same_directory",
    "Verif.Url.C154_root_counterexample",
    "Verif.Url.C154_backslash_counterexample",
    "Verif.Url.C154_overwrite_counterexample"
   ],
   "note": "Proved where the buffers have room. Fails in the root directory, for backslashes, and for long names of a certain form, where the input is overwritten."
  },
  {
   "property": "C155",
   "status": "partial",
   "theorems": [
    "Verif.Url.C155_first_part_partial",
    "Verif.Url.C155_parts_counterexample",
    "Verif.Url.C155_parts_named_counterexample"
   ],
   "note": "Fails for every input: %zu is not known to the formatting function; the first name loses the extension, the second part crashes."
  },
  {
   "property": "C156",
   "status": "partial",
   "theorems": [
    "Verif.Url.C156_relative_and_back_partial",
    "Verif.Url.C156_relative_plain",
    "Verif.Url.C156_case_counterexample",
    "Verif.Url.C156_root_counterexample",
    "Verif.Url.C156_absolute"
   ],
   "note": "Proved for all paths below the base; paths that differ from the base in case only, and bases which are a protocol alone, are counterexamples."
  },
  {
   "property": "C157",
   "status": "partial",
   "theorems": [
    "Verif.Url.C157_upper_partial",
    "Verif.Url.C157_climb_ends_partial",
    "Verif.Url.C157_share_counterexample"
   ],
   "note": "Proved for all paths but Windows shares, for which going up never ends."
  },
  {
   "property": "C158",
   "status": "partial",
   "theorems": [
    "Verif.Url.C158_type_of_file_partial",
    "Verif.Url.C158_query_counterexample"
   ],
   "note": "Proved for all names without protocol, and queries without dot or delimiter; others are a counterexample."
  },
  {
   "property": "C159",
   "status": "proved",
   "theorems": [
    "Verif.Bzip.C159_bzip_ends_in_bounds"
   ],
   "note": "Allocation failures are not modelled."
  },
  {
   "property": "C160",
   "status": "proved",
   "theorems": [
    "Verif.Bzip.C160_bzip_round_trip",
    "Verif.Bzip.C160_bzip_all_data",
    "Verif.Bzip.C160_bzip_one_meaning"
   ],
   "note": "The format is written down from the side of the compressor in Verif/Bzip/Spec.lean. The compressor of /repo itself is not modelled."
  },
  {
   "property": "C161",
   "status": "proved",
   "theorems": [
    "Verif.Bzip.C161_bzip_checksum"
   ],
   "note": ""
  },
  {
   "property": "C162",
   "status": "proved",
   "theorems": [
    "Verif.Bzip.C162_bzip_cut_refused",
    "Verif.Bzip.C162_bzip_trailing"
   ],
   "note": ""
  },
  {
   "property": "C163",
   "status": "partial",
   "theorems": [
    "Verif.Mkv.C163_zip_empty_frame_hangs",
    "Verif.Mkv.C163_zip_complete_counterexample",
    "Verif.Mkv.C163_zip_complete_partial",
    "Verif.Mkv.C163_empty_frame_not_written"
   ],
   "note": "False for the empty frame: the output buffer gets as many bytes as the frame has, none, and the loop never ends (any frame size computation, block or CodecPrivate written with zlib). Proved for all other frames. zlib is a parameter with its documented contract."
  },
  {
   "property": "C164",
   "status": "proved",
   "theorems": [
    "Verif.Mkv.C164_unzip_complete",
    "Verif.Mkv.C164_unzip_ends"
   ],
   "note": "zlib is a parameter with its documented contract"
  },
  {
   "property": "C165",
   "status": "proved",
   "theorems": [
    "Verif.Mkv.C165_bzip_block",
    "Verif.Mkv.C165_bzip_frame_exists"
   ],
   "note": "from C160 and the block model"
  },
  {
   "property": "C166",
   "status": "partial",
   "theorems": [
    "Verif.Vorbis.C166_ends_partial",
    "Verif.Vorbis.C166_accepted_in_range",
    "Verif.Vorbis.C166_lace_exact",
    "Verif.Vorbis.C166_counterexample",
    "Verif.Vorbis.C166_posts_counterexample",
    "Verif.Vorbis.C166_booklist_counterexample",
    "Verif.Vorbis.C166_truncated_counterexample",
    "Verif.Vorbis.C166_codebook_counterexample",
    "Verif.Vorbis.C166_comment_counterexample",
    "Verif.Vorbis.C166_free_counterexample",
    "Verif.Vorbis.C166_durations_counterexample"
   ],
   "note": "code violates it in fifteen ways, each with a counterexample; for all inputs nothing else goes wrong and everything ends"
  },
  {
   "property": "C167",
   "status": "partial",
   "theorems": [
    "Verif.Vorbis.C167_headers_partial",
    "Verif.Vorbis.C167_values_exact",
    "Verif.Vorbis.C167_long_comments_rejected",
    "Verif.Vorbis.C167_counterexample",
    "Verif.Vorbis.C167_long_words_counterexample",
    "Verif.Vorbis.C167_no_values_counterexample"
   ],
   "note": "code violates it: every track whose comments take 255 bytes or more is rejected; round trip proved for shorter comments and codebooks of type 1 with at most 20 dimensions"
  },
  {
   "property": "C168",
   "status": "partial",
   "theorems": [
    "Verif.Vorbis.C168_durations_partial",
    "Verif.Vorbis.C168_durations_exact",
    "Verif.Vorbis.C168_mode_exact",
    "Verif.Vorbis.C168_mode_undefined",
    "Verif.Vorbis.C168_counterexample",
    "Verif.Vorbis.C168_rate_counterexample"
   ],
   "note": "code violates it: the mode is taken from the high bits; exact characterisation, right exactly with 1 or more than 32 modes"
  },
  {
   "property": "C169",
   "status": "partial",
   "theorems": [
    "Verif.Mkclean.C169_segment_partial",
    "Verif.Mkclean.C169_segment_exact",
    "Verif.Mkclean.C169_segment_counterexample"
   ],
   "note": "false: when the size field of the Segment needs more bytes than first reserved the first bytes of the Void are overwritten and the Segment announces more than follows; proved: the exact bytes of every finished file, and the full statement when the size of the source is unknown or not below that of the file"
  },
  {
   "property": "C170",
   "status": "proved",
   "theorems": [
    "Verif.Mkclean.C170_seek_head"
   ],
   "note": "every finished file below 2^63 bytes, also when the Segment head outgrew its place; sections are the bytes they are rendered to"
  },
  {
   "property": "C171",
   "status": "partial",
   "theorems": [
    "Verif.Mkclean.C171_cues_partial",
    "Verif.Mkclean.C171_cues_right",
    "Verif.Mkclean.C171_cues_counterexample"
   ],
   "note": "false: the SeekHead can take another size than supposed when Clusters were placed; proved: all CuePoints miss their Cluster by the same number of bytes, given exactly, and none when it is zero"
  },
  {
   "property": "C172",
   "status": "partial",
   "theorems": [
    "Verif.Mkclean.C172_prev_size_partial",
    "Verif.Mkclean.C172_prev_size_counterexample",
    "Verif.Mkclean.C172_dropped_block_counterexample"
   ],
   "note": "false for Clusters of equal times and for blocks that cannot be read; proved for readable blocks and increasing times"
  },
  {
   "property": "C173",
   "status": "partial",
   "theorems": [
    "Verif.Mkclean.C173_outcome_partial",
    "Verif.Mkclean.C173_outcome_counterexample"
   ],
   "note": "false: gives up with -23 for some sizes of sections; proved: never follows a null pointer, the only outcomes are a file, -23, and -18 only if a Cluster changed while written"
  },
  {
   "property": "C174",
   "status": "partial",
   "theorems": [
    "Verif.Mkclean.C174_clusters_load_partial",
    "Verif.Mkclean.C174_cues_play"
   ],
   "note": "for Clusters that are each later than the one before; through CuePoints where the Cues are right (C171); restrictions of C136 on blocks"
  },
  {
   "property": "C175",
   "status": "partial",
   "theorems": [
    "Verif.Scanf.C175_reads_decimal",
    "Verif.Scanf.C175_every_text",
    "Verif.Scanf.C175_decimal_round_trip",
    "Verif.Scanf.C175_hex_round_trip",
    "Verif.Scanf.C175_counterexample",
    "Verif.Scanf.C175_characters",
    "Verif.Scanf.C175_octal",
    "Verif.Scanf.C175_width"
   ],
   "note": "exact result for every text; texts of 2^63 and more are undefined behaviour, and negative numbers are printed wrongly in hexadecimal"
  },
  {
   "property": "C176",
   "status": "partial",
   "theorems": [
    "Verif.Scanf.C176_reads_hex",
    "Verif.Scanf.C176_decimal_is_zero",
    "Verif.Scanf.C176_defined",
    "Verif.Scanf.C176_round_trip_partial",
    "Verif.Scanf.C176_counterexample"
   ],
   "note": "defined for every text; decimal texts are read as 0, lower halves of 2^31 and more as negative; the round trip holds in hexadecimal with both halves below 2^31"
  },
  {
   "property": "C177",
   "status": "partial",
   "theorems": [
    "Verif.Setup.C177_command_line",
    "Verif.Setup.C177_counterexample",
    "Verif.Setup.C177_more_names",
    "Verif.Setup.C177_help",
    "Verif.Setup.C177_refused"
   ],
   "note": "every line of options, source, output is read as asked; a negative --alt-3d writes out of bounds and an option behind the source makes mkclean read the output"
  },
  {
   "property": "C178",
   "status": "partial",
   "theorems": [
    "Verif.Setup.C178_scale",
    "Verif.Setup.C178_option_ignored",
    "Verif.Setup.C178_hangs",
    "Verif.Setup.C178_counterexample",
    "Verif.Setup.C178_asked"
   ],
   "note": "exact for the default; a decimal --timecodescale is ignored, and TimestampScale 0 never ends"
  },
  {
   "property": "C179",
   "status": "partial",
   "theorems": [
    "Verif.Setup.C179_accepted",
    "Verif.Setup.C179_doc",
    "Verif.Setup.C179_source_profiles",
    "Verif.Setup.C179_own_output",
    "Verif.Setup.C179_own_output_read",
    "Verif.Setup.C179_counterexample"
   ],
   "note": "exact acceptance; mkclean refuses its own --doctype 3, 6 and 7 output, and --doctype 1 keeps the version of the source"
  },
  {
   "property": "C180",
   "status": "partial",
   "theorems": [
    "Verif.Setup.C180_only_allowed",
    "Verif.Setup.C180_counterexample"
   ],
   "note": "files with DocTypeReadVersion 2 get profile Matroska v2 and lose their elements of later versions, such as CodecDelay"
  },
  {
   "property": "C181",
   "status": "partial",
   "theorems": [
    "Verif.Setup.C181_complete_iff",
    "Verif.Setup.C181_quits_iff",
    "Verif.Setup.C181_exit_code_partial",
    "Verif.Setup.C181_counterexample",
    "Verif.Setup.C181_crash_iff"
   ],
   "note": "exact conditions of a complete file and of exit code 0 without one (--alt-3d in an old profile, --remux without main track or keyframe, unwritable EBML head)"
  },
  {
   "property": "C182",
   "status": "partial",
   "theorems": [
    "Verif.Setup.C182_other_files",
    "Verif.Setup.C182_removed",
    "Verif.Setup.C182_counterexample",
    "Verif.Setup.C182_not_kept"
   ],
   "note": "other files are untouched; the same name for both destroys the source, and a read-only output is deleted"
  },
  {
   "property": "C183",
   "status": "partial",
   "theorems": [
    "Verif.Enc.C183_private_same_partial",
    "Verif.Enc.C183_empty_dropped",
    "Verif.Enc.C183_counterexample",
    "Verif.Enc.C183_bzlib_counterexample"
   ],
   "note": "Holds for private data stored plainly or with zlib and not said to be encrypted; an empty CodecPrivate is dropped. Counterexamples: private data compressed with bzlib, and encrypted private data that zlib lengthens."
  },
  {
   "property": "C184",
   "status": "partial",
   "theorems": [
    "Verif.Enc.C184_kind_kept_partial",
    "Verif.Enc.C184_counterexample"
   ],
   "note": "Exact: zlib, bzlib and LZO frames are decompressed when, without --compalgo, the CodecPrivate would be more than 4 bytes shorter with zlib."
  },
  {
   "property": "C185",
   "status": "partial",
   "theorems": [
    "Verif.Enc.C185_optimized_partial",
    "Verif.Enc.C185_no_optimize",
    "Verif.Enc.C185_counterexample",
    "Verif.Enc.C185_webm"
   ],
   "note": "Exact table for --optimize and --no-optimize. --compalgo 0 does nothing to plain tracks without --optimize."
  },
  {
   "property": "C186",
   "status": "partial",
   "theorems": [
    "Verif.Enc.C186_encryption_lost_partial",
    "Verif.Enc.C186_counterexample"
   ],
   "note": "The property fails for every setting: the encoding is removed or replaced."
  },
  {
   "property": "C187",
   "status": "partial",
   "theorems": [
    "Verif.Sections.C187_sections_partial",
    "Verif.Sections.C187_single",
    "Verif.Sections.C187_counterexample"
   ],
   "note": "Exact: the last readable one of each kind, all readable Clusters in order. Fails for several Tags elements, which Matroska allows."
  },
  {
   "property": "C188",
   "status": "partial",
   "theorems": [
    "Verif.Sections.C188_segment_info_partial",
    "Verif.Sections.C188_live",
    "Verif.Sections.C188_stable"
   ],
   "note": "All Segment Infos; durations are exact rationals, the rounding of double is not modelled."
  },
  {
   "property": "C189",
   "status": "partial",
   "theorems": [
    "Verif.AppName.C189_writing_app_partial",
    "Verif.AppName.C189_grows",
    "Verif.AppName.C189_counterexample",
    "Verif.AppName.C189_letters",
    "Verif.AppName.C189_muxing_app"
   ],
   "note": "The exact WritingApp for all names and options, and when memory outside the text is read. 'Keeps its names' is refuted: every cleaning puts the same text in front once more (exact formula for any number of cleanings)."
  },
  {
   "property": "C190",
   "status": "proved",
   "theorems": [
    "Verif.Mkclean.C190_times_ascend"
   ],
   "note": "Refinement of the loop that writes the Clusters to a fold on ticks; times are multiples of the TimestampScale with room to 2^63."
  },
  {
   "property": "C191",
   "status": "proved",
   "theorems": [
    "Verif.Core.Classes.C191_registered",
    "Verif.Core.Classes.C191_order",
    "Verif.Core.Classes.C191_again"
   ],
   "note": "One module, classes with IDs; the tables of functions and of readable attributes. Creation functions that fail and unregistering are not modelled."
  },
  {
   "property": "C192",
   "status": "partial",
   "theorems": [
    "Verif.Core.Classes.C192_list_partial",
    "Verif.Core.Classes.C192_counterexample"
   ],
   "note": "Proved for registries in which going from parent to parent ends. Two classes that are each other's parent make the search endless (counterexample)."
  },
  {
   "property": "C193",
   "status": "partial",
   "theorems": [
    "Verif.Core.Refs.C193_safe",
    "Verif.Core.Refs.C193_kept",
    "Verif.Core.Refs.C193_once",
    "Verif.Core.Refs.C193_count",
    "Verif.Core.Refs.C193_values",
    "Verif.Core.Refs.C193_no_leak_partial",
    "Verif.Core.Refs.C193_all_freed_partial",
    "Verif.Core.Refs.C193_circle_counterexample",
    "Verif.Core.Refs.C193_replace_counterexample"
   ],
   "note": "Nodes in a circle are never freed (shown), so that nothing is left behind is proved for graphs without one. Setting a dynamic attribute from one node to another is not counted by the code (shown), so the rules exclude it. Listeners, singletons, lack of memory and addresses used again are not modelled."
  },
  {
   "property": "C194",
   "status": "partial",
   "theorems": [
    "Verif.Core.NodeLife.C194_history",
    "Verif.Core.NodeLife.C194_created",
    "Verif.Core.NodeLife.C194_nodes",
    "Verif.Core.NodeLife.C194_counts",
    "Verif.Core.NodeLife.C194_cleanup",
    "Verif.Core.NodeLife.C194_memory_counterexample"
   ],
   "note": "Proved for creations that get their memory; without memory the modules stay locked (shown). Singletons, listeners and the loading of modules are not modelled."
  },
  {
   "property": "C195",
   "status": "partial",
   "theorems": [
    "Verif.Ebml.Scan.C195_first",
    "Verif.Ebml.Scan.C195_found_partial",
    "Verif.Ebml.Scan.C195_tail_counterexample"
   ],
   "note": "What is found is always the first element. That the first one is found is proved unless it begins in the last 11 bytes; there the property fails: the window is not refilled at the end, so an empty Void as the last two bytes behind one stray byte is missed."
  },
  {
   "property": "C196",
   "status": "partial",
   "theorems": [
    "Verif.Mkparts.C196_split",
    "Verif.Mkparts.C196_single",
    "Verif.Mkparts.C196_plain",
    "Verif.Mkparts.C196_hidden_counterexample"
   ],
   "note": "Proved for any number of documents whose headers hold nothing that reads as an element of the top level, in particular without the bytes 1A, 18, EC, BF; otherwise it fails, as the content of the header is searched and not skipped. Assumes the parts can be opened, and the files given their right names (see C155)."
  },
  {
   "property": "C197",
   "status": "partial",
   "theorems": [
    "Verif.Mkparts.C197_search_ends_partial",
    "Verif.Mkparts.C197_closed_twice_counterexample",
    "Verif.Mkparts.C197_header_only_counterexample",
    "Verif.Mkparts.C197_cut_off_counterexample"
   ],
   "note": "The search ends on every file. The rest fails: after any successful split the last output is closed twice, a header without Segment dereferences NULL, a file cut off in its last Segment is copied for ever."
  },
  {
   "property": "C198",
   "status": "partial",
   "theorems": [
    "Verif.Mkparts.C198_content_lost_counterexample",
    "Verif.Mkparts.C198_last_open_counterexample"
   ],
   "note": "Fails for all documents: only the head of the Segment is written. Proved for every first document with an element in its Segment; the document behind is written exactly."
  },
  {
   "property": "C199",
   "status": "partial",
   "theorems": [
    "Verif.Base64.C199_encode",
    "Verif.Base64.C199_decode",
    "Verif.Base64.C199_round_trip",
    "Verif.Base64.C199_no_room_counterexample"
   ],
   "note": "Encoding and decoding are proved for all bytes and rooms. The exception is encoding nothing into a buffer of size 0, where the terminator is stored behind the end (counterexample)."
  },
  {
   "property": "C200",
   "status": "partial",
   "theorems": [
    "Verif.Frac.C200_fits",
    "Verif.Frac.C200_exact",
    "Verif.Frac.C200_close",
    "Verif.Frac.C200_close_inverse",
    "Verif.Frac.C200_counterexample"
   ],
   "note": "Range, exactness and the error bounds are proved for all numbers of 63 bits. The lowest 64-bit number is undefined behaviour and a value too large for an int gets the denominator 0 (counterexample)."
  },
  {
   "property": "C201",
   "status": "partial",
   "theorems": [
    "Verif.Frac.C201_integer",
    "Verif.Frac.C201_no_integer",
    "Verif.Frac.C201_fixed_length",
    "Verif.Frac.C201_hexadecimal",
    "Verif.Frac.C201_fraction",
    "Verif.Frac.C201_fraction_exact",
    "Verif.Frac.C201_whole",
    "Verif.Frac.C201_negative_counterexample"
   ],
   "note": "Integers of all forms and fractions that are not negative are proved. Negative numbers with decimals are read wrongly (counterexample)."
  },
  {
   "property": "C202",
   "status": "partial",
   "theorems": [
    "Verif.Frac.C202_text",
    "Verif.Frac.C202_exact",
    "Verif.Frac.C202_no_denominator",
    "Verif.Frac.C202_signs",
    "Verif.Frac.C202_counterexample"
   ],
   "note": "Proved for fractions that are not negative. Negative ones are shown with two signs, and percentages of large numbers lose the denominator (counterexample)."
  },
  {
   "property": "C203",
   "status": "partial",
   "theorems": [
    "Verif.Mkclean.Collect.C203_blocks_by_track",
    "Verif.Mkclean.Collect.C203_tracks_left",
    "Verif.Mkclean.Collect.C203_after_linking",
    "Verif.Mkclean.Collect.C203_combined_counterexample",
    "Verif.Mkclean.Collect.C203_subtitles_counterexample"
   ],
   "note": "proved for TrackNumbers of 0 to 2^63-1 (main track below 32768); partial because the combined track mkclean makes itself is deleted again and a file of subtitles ends with exit code 0 without output"
  },
  {
   "property": "C204",
   "status": "partial",
   "theorems": [
    "Verif.Mkclean.Collect.C204_remux_file",
    "Verif.Mkclean.C112_single_block_counterexample",
    "Verif.Mkclean.C112_disorder_counterexample"
   ],
   "note": "C203 followed by C112, for whole files; partial because of the restrictions of C112 (its counterexamples) and without 3D tracks"
  },
  {
   "property": "C205",
   "status": "proved",
   "theorems": [
    "Verif.Accepted.C205_accepted"
   ],
   "note": "for files not larger than their source (otherwise C169_counterexample applies), sections in mkclean's order, blocks readable and Clusters ascending (otherwise C171's and C172's counterexamples apply); that mkvalidator sees the elements as written is a hypothesis (SeesAll), shown to be satisfiable by sees_exists"
  },
  {
   "property": "C206",
   "status": "proved",
   "theorems": [
    "Verif.Accepted.C206_new_cues",
    "Verif.Accepted.C206_ticks_counterexample"
   ],
   "note": "composition of C122 and C132; that the keyframes seen by mkvalidator are those of the Clusters is the hypothesis SeesKeys; C206_ticks_counterexample shows that whole ticks are needed"
  },
  {
   "property": "C207",
   "status": "proved",
   "theorems": [
    "Verif.Mkclean.C207_layout"
   ],
   "note": ""
  },
  {
   "property": "C208",
   "status": "partial",
   "theorems": [
    "Verif.Mkclean.C208_prev_size_partial",
    "Verif.Mkclean.C208_late_counterexample",
    "Verif.Mkclean.C208_unread_counterexample"
   ],
   "note": "The code violates it when a Cluster changes while it is written (time incremented, block unreadable); proved for Clusters in the order of their times whose blocks were read in advance or are all readable."
  },
  {
   "property": "C209",
   "status": "proved",
   "theorems": [
    "Verif.Mkclean.C209_junk_skipped",
    "Verif.Mkclean.C209_first_section"
   ],
   "note": ""
  },
  {
   "property": "C210",
   "status": "proved",
   "theorems": [
    "Verif.Mkclean.C210_interleaving",
    "Verif.Mkclean.C210_laces_cut"
   ],
   "note": "interleaving for single-frame blocks in the other tracks and strictly ascending main track; the cut of laces for every run that succeeds"
  },
  {
   "property": "C211",
   "status": "partial",
   "theorems": [
    "Verif.Ebml.Text.C211_inside_partial",
    "Verif.Ebml.Text.C211_overrun",
    "Verif.Ebml.Text.C211_counterexample",
    "Verif.Ebml.Text.C211_wide"
   ],
   "note": "The code violates the property when the converted text with its terminator fills the buffer exactly (C211_overrun, for every converter); otherwise proved for all texts and sizes."
  },
  {
   "property": "C212",
   "status": "partial",
   "theorems": [
    "Verif.Ebml.Text.C212_text_partial",
    "Verif.Ebml.Text.C212_cut",
    "Verif.Ebml.Text.C212_counterexample",
    "Verif.Ebml.Text.C212_plain"
   ],
   "note": "Proved for texts of at most 2046 bytes; longer ones are cut (C212_cut, for all of them)."
  },
  {
   "property": "C213",
   "status": "partial",
   "theorems": [
    "Verif.Ebml.Text.C213_wide_text",
    "Verif.Ebml.Text.C213_counterexample"
   ],
   "note": "C213_wide_text says for every length what arrives; the property itself is refuted."
  },
  {
   "property": "C214",
   "status": "partial",
   "theorems": [
    "Verif.Props.Fields3D.C214_refused",
    "Verif.Props.Fields3D.C214_lost",
    "Verif.Props.Fields3D.C214_settled",
    "Verif.Props.Fields3D.C214_group",
    "Verif.Props.Fields3D.C214_counterexample",
    "Verif.Props.Fields3D.C214_append",
    "Verif.Props.Fields3D.C214_first",
    "Verif.Props.Fields3D.C214_error"
   ],
   "note": "The property is violated; what comes of the fields instead is proved for every number of fields. Tracks without encoding; one Cluster."
  },
  {
   "property": "C215",
   "status": "partial",
   "theorems": [
    "Verif.Props.Fields3D.C215_marks_partial",
    "Verif.Props.Fields3D.C215_behind",
    "Verif.Props.Fields3D.C215_counterexample"
   ],
   "note": "The property is violated; it is proved for the numbers up to the highest marked one."
  },
  {
   "property": "C216",
   "status": "partial",
   "theorems": [
    "Verif.Props.Xml.C216_attribute_partial",
    "Verif.Props.Xml.C216_inside",
    "Verif.Props.Xml.C216_quote_lost",
    "Verif.Props.Xml.C216_cut_entity",
    "Verif.Props.Xml.C216_counterexample"
   ],
   "note": "The property is violated for texts that do not fit into a line or the buffer; it is proved for all others."
  },
  {
   "property": "C217",
   "status": "partial",
   "theorems": [
    "Verif.Props.Xml.C217_document_partial",
    "Verif.Props.Xml.C217_injected",
    "Verif.Props.Xml.C217_counterexample"
   ],
   "note": "The property is violated for texts of elements with markup; it is proved for every tree without. TextElementAppendData is not part of it."
  },
  {
   "property": "C218",
   "status": "partial",
   "theorems": [
    "Verif.Props.DoubleFrac.C218_exact_partial",
    "Verif.Props.DoubleFrac.C218_close_partial",
    "Verif.Props.DoubleFrac.C218_close_inverse_partial",
    "Verif.Props.DoubleFrac.C218_negative",
    "Verif.Props.DoubleFrac.C218_range",
    "Verif.Props.DoubleFrac.C218_counterexample",
    "Verif.Props.DoubleFrac.C218_zero"
   ],
   "note": "The property is violated for negative doubles and those outside of 2^-10 to 2^53; it is proved for all others."
  },
  {
   "property": "C219",
   "status": "partial",
   "theorems": [
    "Verif.Props.KeyFlags.C219_simple",
    "Verif.Props.KeyFlags.C219_group",
    "Verif.Props.KeyFlags.C219_lost",
    "Verif.Props.KeyFlags.C219_counterexample",
    "Verif.Props.KeyFlags.C219_bare"
   ],
   "note": "The property is violated for Blocks in a BlockGroup, for which the outcome is proved; it is proved for SimpleBlocks."
  },
  {
   "property": "C220",
   "status": "proved",
   "theorems": [
    "Verif.FileLibc.C220_handles",
    "Verif.FileLibc.C220_notices"
   ],
   "note": "Invariant over any sequence of calls and any answers of the system."
  },
  {
   "property": "C221",
   "status": "partial",
   "theorems": [
    "Verif.FileLibc.C221_read",
    "Verif.FileLibc.C221_end",
    "Verif.FileLibc.C221_short_read_counterexample",
    "Verif.FileLibc.C221_write",
    "Verif.FileLibc.C221_write_read",
    "Verif.FileLibc.C221_seek",
    "Verif.FileLibc.C221_skip",
    "Verif.FileLibc.C221_length_read_only",
    "Verif.FileLibc.C221_length_counterexample",
    "Verif.FileLibc.C221_opened",
    "Verif.FileLibc.C221_refused",
    "Verif.FileLibc.C221_set_length"
   ],
   "note": "Reading, writing, seeking and skipping are proved for all contents and answers. Violated: a short read of the system is reported as the end of the file; the length reported is the one at opening, also after writing."
  },
  {
   "property": "C222",
   "status": "partial",
   "theorems": [
    "Verif.FileLibc.C222_listing_partial",
    "Verif.FileLibc.C222_counterexample",
    "Verif.FileLibc.C222_root"
   ],
   "note": "Proved when paths fit MAXPATH and the system has data for every visible entry. Violated: entries stat fails for (dangling links) get undefined values; a cut path is looked up instead of the entry."
  },
  {
   "property": "C223",
   "status": "partial",
   "theorems": [
    "Verif.FileLibc.C223_date_partial",
    "Verif.FileLibc.C223_order",
    "Verif.FileLibc.C223_counterexample"
   ],
   "note": "Proved for all moments but one. Violated: 2001-01-01 00:00:00 UTC is shown as the second after."
  },
  {
   "property": "C224",
   "status": "partial",
   "theorems": [
    "Verif.Mkclean.BlockTimes.C224_counterexample",
    "Verif.Mkclean.BlockTimes.C224_remux_counterexample",
    "Verif.Mkclean.BlockTimes.C224_remux_partial",
    "Verif.Mkclean.BlockTimes.C224_remux_same_scale",
    "Verif.Mkclean.BlockTimes.C224_relinked_partial",
    "Verif.Mkclean.BlockTimes.C224_kept_partial",
    "Verif.Mkclean.BlockTimes.C224_order_counterexample",
    "Verif.Mkclean.BlockTimes.C224_piece_partial"
   ],
   "note": "The code violates the property: Clusters that are kept with the Cues (or a single Cluster) keep their Timestamp in ticks of the old scale, local times are converted only for blocks that were looked up for a Cue, local times beyond 16 bits are left unconverted when Cues are generated, and Cluster and block are rounded separately. The exact written time is proved for each way; with an unchanged scale all of them are exact. TrackTimestampScale 1."
  },
  {
   "property": "C225",
   "status": "partial",
   "theorems": [
    "Verif.Mkclean.BlockTimes.C225_counterexample",
    "Verif.Mkclean.BlockTimes.C225_default_counterexample",
    "Verif.Mkclean.BlockTimes.C225_durations_partial"
   ],
   "note": "The code violates the property: BlockDuration is never converted when the TimestampScale changes, which happens without any option for scales below 100000. What happens to each duration is proved exactly."
  },
  {
   "property": "C226",
   "status": "partial",
   "theorems": [
    "Verif.Ebml.Scan.C226_counterexample",
    "Verif.Ebml.Scan.C226_every_other_partial",
    "Verif.Ebml.Scan.C226_matroska_ends"
   ],
   "note": "False: the element that the skip over a Cluster of unknown size has already read is thrown away, so every second Cluster is lost. Proved exactly which ones are loaded, for any number of Clusters, when nothing in the lost ones looks like an element of the Segment; missing: what happens when something does."
  },
  {
   "property": "C227",
   "status": "partial",
   "theorems": [
    "Verif.Ebml.Scan.C227_all_seen_partial",
    "Verif.Ebml.Scan.C227_mkclean_partial",
    "Verif.Ebml.Scan.C227_mkvalidator_partial",
    "Verif.Ebml.Scan.C227_sections",
    "Verif.Ebml.Scan.C227_passed_over",
    "Verif.Ebml.Scan.C227_passed_over_programs",
    "Verif.Ebml.Scan.C227_unreadable"
   ],
   "note": "Sections of known size, elements with unknown IDs and Clusters of unknown size in any order, in a Segment of unknown size (or of known size, ended by a section of known size). Not covered: elements of unknown size inside the Clusters and sections, unknown IDs right behind a Cluster of unknown size."
  },
  {
   "property": "C228",
   "status": "proved",
   "theorems": [
    "Verif.Ebml.Scan.C228_status",
    "Verif.Ebml.Scan.C228_damage",
    "Verif.Ebml.Scan.C228_stored",
    "Verif.Ebml.Scan.C228_unchecked",
    "Verif.Ebml.Scan.C228_requested"
   ],
   "note": "Elements of known size with a CRC-32 of four bytes in front, loaded by EBML_ElementReadData with at least one level verified. C228_unchecked: with no level verified nothing is reported."
  },
  {
   "property": "C229",
   "status": "partial",
   "theorems": [
    "Verif.Ebml.C229_counterexample",
    "Verif.Ebml.C229_still_unknown_partial",
    "Verif.Ebml.C229_by_hand",
    "Verif.Ebml.C229_too_large"
   ],
   "note": "False in the code: the element stays of unknown size and success is returned for every size (ebmlelement.c:199). Proved: what it does, and that setting the fields by hand works."
  },
  {
   "property": "C230",
   "status": "partial",
   "theorems": [
    "Verif.Ebml.C230_text_partial",
    "Verif.Ebml.C230_distinct",
    "Verif.Ebml.C230_counterexample"
   ],
   "note": "For all IDs but 0; for ID 0 the text is empty while the result is 4 (C230_counterexample)."
  },
  {
   "property": "C231",
   "status": "partial",
   "theorems": [
    "Verif.Ebml.Scan.C231_ordinary_partial",
    "Verif.Ebml.Scan.C231_open_last",
    "Verif.Ebml.Scan.C231_counterexample"
   ],
   "note": "Proved for files in which all sections have known sizes (and by C227_all_seen_partial for Clusters of unknown size that are not last). False if the last element is a Cluster of unknown size: both programs crash, for every content."
  },
  {
   "property": "C232",
   "status": "partial",
   "theorems": [
    "Verif.Url.C232_counterexample",
    "Verif.Url.C232_named_partial",
    "Verif.Url.C232_address"
   ],
   "note": "Fails for names that begin like an address (a file under `a://b` is not opened, `file:///x` asks for the whole address) and for the empty name, which opens a stream without a file. Proved: exactly what is opened and reported for every other name and for every address."
  },
  {
   "property": "C233",
   "status": "partial",
   "theorems": [
    "Verif.Args.C233_mkvalidator_partial",
    "Verif.Args.C233_mkparts_partial",
    "Verif.Args.C233_counterexample"
   ],
   "note": "Fails with an option behind the file (the option is opened as the file), and --quick hides the options that --help lists. Proved for every command line: the options take effect wherever they are, the last argument is read, the others are reported, the texts and codes."
  },
  {
   "property": "C234",
   "status": "partial",
   "theorems": [
    "Verif.Ebml.Scan.C234_counterexample",
    "Verif.Ebml.Scan.C234_listed_partial",
    "Verif.Ebml.Scan.C234_levels_counterexample"
   ],
   "note": "Refuted for every file: mkvtree reads Context->Profile through the null pointer it passes itself. With that line mended, all elements of a conformant file with known sizes are listed once, in order, with positions; the indentation is still wrong where two masters end together."
  },
  {
   "property": "C235",
   "status": "partial",
   "theorems": [
    "Verif.Attr.C235_value_partial",
    "Verif.Attr.C235_text_partial",
    "Verif.Attr.C235_flag",
    "Verif.Attr.C235_reset_partial",
    "Verif.Attr.C235_fraction_compare",
    "Verif.Attr.C235_fraction_partial",
    "Verif.Attr.C235_others_kept",
    "Verif.Attr.C235_quiet",
    "Verif.Attr.C235_told_partial",
    "Verif.Attr.C235_fraction_counterexample",
    "Verif.Attr.C235_zero_counterexample",
    "Verif.Attr.C235_told_counterexample",
    "Verif.Attr.C235_compare_counterexample"
   ],
   "note": "Values of a fixed size, texts (cut to their place), flags, fractions (as numbers), NULL, other attributes and announcements are proved for all values and places. Fails for fractions without denominator (5/0 over 0/0 is dropped), for attributes without default set to zero (not readable), and long texts or odd flags are announced each time."
  },
  {
   "property": "C236",
   "status": "proved",
   "theorems": [
    "Verif.TreeFind.C236_by_name",
    "Verif.TreeFind.C236_no_name",
    "Verif.TreeFind.C236_by_class",
    "Verif.TreeFind.C236_scope",
    "Verif.TreeFind.C236_created",
    "Verif.TreeFind.C236_depth_counterexample",
    "Verif.TreeFind.C236_order"
   ],
   "note": "The names of nodes are what the attribute NODE_ID reads as (C235)."
  },
  {
   "property": "C237",
   "status": "partial",
   "theorems": [
    "Verif.Attr.C237_copied_partial",
    "Verif.Attr.C237_other_class",
    "Verif.Attr.C237_unset_counterexample",
    "Verif.Attr.C237_long_text_counterexample",
    "Verif.Attr.C237_buffer_counterexample"
   ],
   "note": "Left out: references with a count, arrays, expressions, attributes with functions of their own, fractions that are compared. The counterexamples show that attributes without value and default, long texts among the values and binary data larger than MAXDATA are not copied rightly."
  },
  {
   "property": "C238",
   "status": "partial",
   "theorems": [
    "Verif.Params.C238_name",
    "Verif.Params.C238_trim",
    "Verif.Params.C238_skip_after",
    "Verif.Params.C238_skip_blanks",
    "Verif.Params.C238_symbol_partial",
    "Verif.Params.C238_symbol_pair_partial",
    "Verif.Params.C238_list",
    "Verif.Params.C238_end_counterexample"
   ],
   "note": "Symbols other than the character 0 (C238_end_counterexample: asked for 0 the text is left) and, for C238_symbol_partial, other than blanks."
  },
  {
   "property": "C239",
   "status": "partial",
   "theorems": [
    "Verif.Attr.C239_toggle_partial",
    "Verif.Attr.C239_no_default_counterexample"
   ],
   "note": "Flags with a default; one without can not be read once it was inverted to 0 (counterexample)."
  },
  {
   "property": "C240",
   "status": "partial",
   "theorems": [
    "Verif.NodeTree.C240_count",
    "Verif.NodeTree.C240_clear",
    "Verif.NodeTree.C240_erase",
    "Verif.NodeTree.C240_sort_partial"
   ],
   "note": "Counting, taking out and deleting hold as stated. Sorting holds for up to 17 children or comparisons that put no element before itself; for others see C79. The array used for sorting does not run out of memory in the model."
  },
  {
   "property": "C241",
   "status": "partial",
   "theorems": [
    "Verif.Mkclean.C241_read",
    "Verif.Mkclean.C241_release",
    "Verif.Mkclean.C241_unreadable",
    "Verif.Mkclean.C241_unreadable_group",
    "Verif.Mkclean.C241_second_block_counterexample",
    "Verif.Mkclean.C241_untimed_counterexample"
   ],
   "note": "Of several Blocks in one BlockGroup only the first is read and released; blocks without a time are released only with the option to do so, which mkclean uses after writing but not while looking for cue times. Allocations succeed in the model; the blocks are linked with their tracks."
  },
  {
   "property": "C242",
   "status": "partial",
   "theorems": [
    "Verif.Names.C242_number",
    "Verif.Names.C242_named_partial",
    "Verif.Names.C242_code_partial",
    "Verif.Names.C242_counterexample"
   ],
   "note": "Proved for all tables, attributes and buffers under the stated conditions; outside them the lookup fails, shown by witnesses. Attributes answered by a function of the class are not modelled."
  },
  {
   "property": "C243",
   "status": "partial",
   "theorems": [
    "Verif.Names.C243_listed",
    "Verif.Names.C243_times",
    "Verif.Names.C243_once_partial",
    "Verif.Names.C243_order",
    "Verif.Names.C243_twice_counterexample"
   ],
   "note": "Which attributes, how often and in which order holds for all tables; \"once\" needs that no type is declared twice."
  },
  {
   "property": "C244",
   "status": "partial",
   "theorems": [
    "Verif.Tick.C244_text_partial",
    "Verif.Tick.C244_read_back",
    "Verif.Tick.C244_lowest_counterexample"
   ],
   "note": "All spans but the lowest number, all buffers; ticks of 32 bits in milliseconds (Linux, macOS, Windows)."
  },
  {
   "property": "C245",
   "status": "proved",
   "theorems": [
    "Verif.Hibernate.C245_rounds",
    "Verif.Hibernate.C245_mildest_first",
    "Verif.Hibernate.C245_reported",
    "Verif.Hibernate.C245_nested"
   ],
   "note": "All functions and states; the functions are parameters that do not register or remove functions while they run."
  },
  {
   "property": "C246",
   "status": "partial",
   "theorems": [
    "Verif.Ebml.Probe.C246_heads_found",
    "Verif.Ebml.Probe.C246_only_heads_partial",
    "Verif.Ebml.Probe.C246_cut_counterexample"
   ],
   "note": "All byte streams; heads cut off within the size field are accepted, shown by the counterexample. Creating the element and validating its size against its class are not part of the model of the probe."
  },
  {
   "property": "C247",
   "status": "partial",
   "theorems": [
    "Verif.ClassTables.C247_sound_partial",
    "Verif.ClassTables.C247_unregister_partial",
    "Verif.ClassTables.C247_all_freed_partial",
    "Verif.ClassTables.C247_module_counterexample"
   ],
   "note": "Proved for all hierarchies, operations and allocators except plugins with classes derived from the class for modules, for which it is refuted; singletons are not modelled."
  },
  {
   "property": "C248",
   "status": "partial",
   "theorems": [
    "Verif.Singletons.C248_sound_partial",
    "Verif.Singletons.C248_found",
    "Verif.Singletons.C248_again",
    "Verif.Singletons.C248_new",
    "Verif.Singletons.C248_unregister",
    "Verif.Singletons.C248_leak_counterexample"
   ],
   "note": "Proved for all histories except those where the array of singletons cannot grow, for which the leak is proved; creation and deletion functions that create or release nodes themselves and singletons with memory of their own are not modelled."
  },
  {
   "property": "C249",
   "status": "proved",
   "theorems": [
    "Verif.FindClass.C249_sound",
    "Verif.FindClass.C249_found",
    "Verif.FindClass.C249_again",
    "Verif.FindClass.C249_module_first"
   ],
   "note": "Addresses of new and moved classes are assumed to be free. NodeContext_UpdateParents, which nothing calls, is not modelled."
  },
  {
   "property": "C250",
   "status": "proved",
   "theorems": [
    "Verif.Rate.C250_text",
    "Verif.Rate.C250_rounded",
    "Verif.Rate.C250_unit"
   ],
   "note": "Rates as text for every int and every buffer size; the numbers are written through the modelled fraction and printf code."
  },
  {
   "property": "C251",
   "status": "partial",
   "theorems": [
    "Verif.DataType.C251_type",
    "Verif.DataType.C251_unit",
    "Verif.DataType.C251_unknown_unit",
    "Verif.DataType.C251_unknown_type",
    "Verif.DataType.C251_back",
    "Verif.DataType.C251_tables_partial",
    "Verif.DataType.C251_type_name_counterexample"
   ],
   "note": "All claims hold but one: the mask of types allows numbers up to 63 and the table of names has 42, so asking for the name of types 42 to 63 reads behind it."
  },
  {
   "property": "C252",
   "status": "partial",
   "theorems": [
    "Verif.Color.C252_guid_partial",
    "Verif.Color.C252_guid_distinct",
    "Verif.Color.C252_rgb_partial",
    "Verif.Color.C252_counterexample"
   ],
   "note": "Proved for GUIDs whose first field is below 2^31 and colours with red below 128; for the others the number is negative as an int and the hexadecimal output is wrong (counterexample)."
  },
  {
   "property": "C253",
   "status": "partial",
   "theorems": [
    "Verif.Color.C253_reads",
    "Verif.Color.C253_text",
    "Verif.Color.C253_round_trip_partial",
    "Verif.Color.C253_counterexample",
    "Verif.Color.C253_refuses"
   ],
   "note": "Reading is settled for every text of a colour; writing and reading back only for red below 128 (the others are written wrongly, C252); texts of sixteen digits and more can overflow."
  },
  {
   "property": "C254",
   "status": "proved",
   "theorems": [
    "Verif.FourccRead.C254_reads",
    "Verif.FourccRead.C254_only",
    "Verif.FourccRead.C254_round_trip"
   ],
   "note": "Exactly the quoted codes are read; the round trip uses C60."
  }
 ]
}