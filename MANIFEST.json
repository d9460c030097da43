{
 "claims": [
  {
   "property": "C01",
   "status": "proved",
   "theorems": [
    "Bpak.C01_crc32_is_bitwise_division",
    "Bpak.C01_crc32_streams",
    "Bpak.C01_id_is_crc",
    "Bpak.C01_one_byte_change_changes_id"
   ],
   "note": ""
  },
  {
   "property": "C02",
   "status": "proved",
   "theorems": [
    "Bpak.C02_hash_tree_id_of_name",
    "Bpak.C02_hash_tree_id_by_name",
    "Bpak.C02_hash_tree_id_injective",
    "Bpak.C02_hash_tree_id_to_part_id",
    "Bpak.C02_hash_tree_id_to_part_id_sound"
   ],
   "note": ""
  },
  {
   "property": "C03",
   "status": "proved",
   "theorems": [
    "Bpak.C03_get_meta_is_first_match",
    "Bpak.C03_get_meta_not_found",
    "Bpak.C03_get_meta_anyref_is_first_match",
    "Bpak.C03_get_meta_anyref_not_found"
   ],
   "note": ""
  },
  {
   "property": "C04",
   "status": "proved",
   "theorems": [
    "Bpak.C04_add_meta_success"
   ],
   "note": ""
  },
  {
   "property": "C05",
   "status": "proved",
   "theorems": [
    "Bpak.C05_meta_ranges_disjoint"
   ],
   "note": ""
  },
  {
   "property": "C06",
   "status": "proved",
   "theorems": [
    "Bpak.C06_add_meta_code"
   ],
   "note": ""
  },
  {
   "property": "C07",
   "status": "partial",
   "theorems": [
    "Bpak.C07_failed_add_meta_unchanged_is_false",
    "Bpak.C07_no_fit_always_leaves_ghost_entry",
    "Bpak.C07_failed_add_meta_unchanged_partial"
   ],
   "note": "Full claim is false of the code: C07_failed_add_meta_unchanged_is_false (reachable witness) and C07_no_fit_always_leaves_ghost_entry (every header with a free slot, entry too large). Proved: the other two refusals change nothing. Nothing provable is missing."
  },
  {
   "property": "C08",
   "status": "partial",
   "theorems": [
    "Bpak.C08_del_meta_exact",
    "Bpak.C08_del_meta_keys_partial",
    "Bpak.C08_del_meta_content_partial",
    "Bpak.C08_del_meta_preserves_others_is_false"
   ],
   "note": "Full claim (others keep their contents) is false: C08_del_meta_preserves_others_is_false. Proved: keys, order and sizes always; contents if no later entry is larger than the deleted one; C08_del_meta_exact gives the exact result in all cases."
  },
  {
   "property": "C09",
   "status": "partial",
   "theorems": [
    "Bpak.C09_del_meta_touches_only_metadata_partial",
    "Bpak.C09_del_meta_full_table_out_of_bounds"
   ],
   "note": "False for a full table (C09_del_meta_full_table_out_of_bounds, every such header); proved for every table with a free slot. Nothing provable is missing."
  },
  {
   "property": "C10",
   "status": "proved",
   "theorems": [
    "Bpak.C10_get_part_is_first_match",
    "Bpak.C10_get_part_not_found",
    "Bpak.C10_part_ids_distinct",
    "Bpak.C10_add_part_code",
    "Bpak.C10_add_part_effect"
   ],
   "note": ""
  },
  {
   "property": "C11",
   "status": "proved",
   "theorems": [
    "Bpak.C11_del_part"
   ],
   "note": ""
  },
  {
   "property": "C12",
   "status": "proved",
   "theorems": [
    "Bpak.C12_part_offset_exact",
    "Bpak.C12_part_ranges_disjoint"
   ],
   "note": ""
  },
  {
   "property": "C13",
   "status": "proved",
   "theorems": [
    "Bpak.C13_valid_header_code",
    "Bpak.C13_valid_header_metadata_readable"
   ],
   "note": ""
  },
  {
   "property": "C14",
   "status": "proved",
   "theorems": [
    "Bpak.C14_init_valid",
    "Bpak.C14_reachable_valid"
   ],
   "note": ""
  },
  {
   "property": "C15",
   "status": "proved",
   "theorems": [
    "Bpak.C15_image_is_4096_bytes",
    "Bpak.C15_write_read",
    "Bpak.C15_read_write",
    "Bpak.C15_layout",
    "Bpak.C15_reachable_wf"
   ],
   "note": ""
  },
  {
   "property": "C16",
   "status": "proved",
   "theorems": [
    "Bpak.C16_copyz_code",
    "Bpak.C16_copyz_success",
    "Bpak.C16_copyz_failure"
   ],
   "note": ""
  },
  {
   "property": "C17",
   "status": "proved",
   "theorems": [
    "Bpak.C17_header_hash_is_digest_of_signed_bytes",
    "Bpak.C17_unsupported_kind",
    "Bpak.C17_signed_bytes_exact",
    "Bpak.C17_small_buffer_reported_is_false"
   ],
   "note": ""
  },
  {
   "property": "C18",
   "status": "partial",
   "theorems": [
    "Bpak.C18_bin2hex_content",
    "Bpak.C18_bin2hex_in_bounds_iff",
    "Bpak.C18_bin2hex_bound_is_false",
    "Bpak.C18_bin2hex_bound_partial"
   ],
   "note": "The bound is false for smaller buffers; C18_bin2hex_in_bounds_iff gives the exact condition. Nothing provable is missing."
  },
  {
   "property": "C19",
   "status": "proved",
   "theorems": [
    "Bpak.C19_uuid_parse_exact",
    "Bpak.C19_uuid_parse_rejects",
    "Bpak.C19_uuid_unparse_exact",
    "Bpak.C19_uuid_round_trip",
    "Bpak.C19_uuid_to_string",
    "Bpak.C19_uuid_to_string_in_bounds"
   ],
   "note": ""
  },
  {
   "property": "C20",
   "status": "proved",
   "theorems": [
    "Bpak.C20_int_round_trip",
    "Bpak.C20_int_wire_format",
    "Bpak.C20_int_range"
   ],
   "note": ""
  },
  {
   "property": "C21",
   "status": "proved",
   "theorems": [
    "Bpak.C21_chunking_irrelevant",
    "Bpak.C21_buffer_size_irrelevant"
   ],
   "note": ""
  },
  {
   "property": "C22",
   "status": "proved",
   "theorems": [
    "Bpak.C22_decoder_applies_records"
   ],
   "note": ""
  },
  {
   "property": "C23",
   "status": "partial",
   "theorems": [
    "Bpak.C23_diff_then_patch",
    "Bpak.C23_own_search_partial",
    "Bpak.C23_suffix_array_too_short"
   ],
   "note": "The round trip is proved for every search with in-range answers, and for the code's own search over an array with one entry more than the code allocates; with the array as allocated the search reads past its end (C23_suffix_array_too_short). The construction of the array is proved correct in C104, the encoder with exactly that array in C105."
  },
  {
   "property": "C24",
   "status": "proved",
   "theorems": [
    "Bpak.C24_decode",
    "Bpak.C24_schedules_agree",
    "Bpak.C24_progress"
   ],
   "note": ""
  },
  {
   "property": "C25",
   "status": "proved",
   "theorems": [
    "Bpak.C25_encode",
    "Bpak.C25_round_trip",
    "Bpak.C25_finishes",
    "Bpak.C25_accepts",
    "Bpak.C25_memory_safe"
   ],
   "note": ""
  },
  {
   "property": "C26",
   "status": "proved",
   "theorems": [
    "Bpak.C26_compressed_diff_then_patch",
    "Bpak.C26_like_plain",
    "Bpak.C26_extra_input_refused"
   ],
   "note": ""
  },
  {
   "property": "C27",
   "status": "partial",
   "theorems": [
    "Bpak.C27_size_exact",
    "Bpak.C27_init_layout",
    "Bpak.C27_agreement_is_false",
    "Bpak.C27_agreement_partial"
   ],
   "note": "Size formula and layout proved for all lengths; that a size is computed exactly if a tree can be built is false above 8 GiB (C27_agreement_is_false)."
  },
  {
   "property": "C28",
   "status": "proved",
   "theorems": [
    "Bpak.C28_chunking_irrelevant",
    "Bpak.C28_any_callbacks"
   ],
   "note": ""
  },
  {
   "property": "C29",
   "status": "proved",
   "theorems": [
    "Bpak.C29_builds_the_hash_tree",
    "Bpak.C29_tree_size"
   ],
   "note": ""
  },
  {
   "property": "C30",
   "status": "proved",
   "theorems": [
    "Bpak.C30_accepts_iff",
    "Bpak.C30_error_names_difference",
    "Bpak.C30_one_block_accepts_iff",
    "Bpak.C30_built_tree_verifies",
    "Bpak.C30_root_binds_data",
    "Bpak.C30_one_block_padding_unchecked"
   ],
   "note": "C30_one_block_padding_unchecked: in a tree of one block the padding of the stored tree is not compared; the iff is stated for both cases."
  },
  {
   "property": "C31",
   "status": "proved",
   "theorems": [
    "Bpak.C31_payload_hash_covers",
    "Bpak.C31_bytes_at_part_offsets",
    "Bpak.C31_excluded_bytes_free"
   ],
   "note": ""
  },
  {
   "property": "C32",
   "status": "proved",
   "theorems": [
    "Bpak.C32_accepts_iff",
    "Bpak.C32_hashed_change_detected",
    "Bpak.C32_tree_part_change_detected"
   ],
   "note": ""
  },
  {
   "property": "C33",
   "status": "proved",
   "theorems": [
    "Bpak.C33_verify_iff",
    "Bpak.C33_sign",
    "Bpak.C33_sign_then_verify",
    "Bpak.C33_failed_sign_leaves_file"
   ],
   "note": ""
  },
  {
   "property": "C34",
   "status": "proved",
   "theorems": [
    "Bpak.C34_accepted_was_signed"
   ],
   "note": ""
  },
  {
   "property": "C35",
   "status": "proved",
   "theorems": [
    "Bpak.C35_add_file",
    "Bpak.C35_add_refused",
    "Bpak.C35_extract_file",
    "Bpak.C35_extract_not_found",
    "Bpak.C35_extract_transport_is_false",
    "Bpak.C35_add_after_transport_is_false",
    "Bpak.C35_hash_stored"
   ],
   "note": ""
  },
  {
   "property": "C36",
   "status": "proved",
   "theorems": [
    "Bpak.C36_delete_part",
    "Bpak.C36_not_found",
    "Bpak.C36_trailing_data_is_false",
    "Bpak.C36_full_table_is_false",
    "Bpak.C36_id_zero_is_false"
   ],
   "note": ""
  },
  {
   "property": "C37",
   "status": "proved",
   "theorems": [
    "Bpak.C37_installed_size",
    "Bpak.C37_pkg_size",
    "Bpak.C37_sizes_vs_file",
    "Bpak.C37_size_is_file_size_is_false"
   ],
   "note": ""
  },
  {
   "property": "C38",
   "status": "partial",
   "theorems": [
    "Bpak.C38_encode",
    "Bpak.C38_round_trip_partial",
    "Bpak.C38_round_trip_is_false",
    "Bpak.C38_no_parts_is_false"
   ],
   "note": "Proved for origins whose package id lies at the same place and packages with a part; false otherwise (two _is_false theorems). liblzma is a parameter: the theorems hold for every library keeping the promises of Spec/Lzma.lean (used only by parts sent with the LZMA algorithms)."
  },
  {
   "property": "C39",
   "status": "partial",
   "theorems": [
    "Bpak.C39_decode_partial",
    "Bpak.C39_is_false",
    "Bpak.C39_package",
    "Bpak.C39_package_file"
   ],
   "note": "Proved for parts decoded as differences or generated, and for whole packages; for a copied part fed through the chunk API it is false (C39_is_false)."
  },
  {
   "property": "C40",
   "status": "partial",
   "theorems": [
    "Bpak.C40_encode",
    "Bpak.C40_encode_same",
    "Bpak.C40_encode_missing_id",
    "Bpak.C40_decode_is_false",
    "Bpak.C40_decode_partial"
   ],
   "note": "Encoding: proved both ways. Decoding: false (the origin's id is compared with itself); C40_decode_partial says exactly what is checked."
  },
  {
   "property": "C41",
   "status": "proved",
   "theorems": [
    "Bpak.C41_keystore_get_ok",
    "Bpak.C41_keystore_get_fail",
    "Bpak.C41_unverified_never"
   ],
   "note": ""
  },
  {
   "property": "C42",
   "status": "proved",
   "theorems": [
    "Bpak.C42_hooks_are_last_valid_pair",
    "Bpak.C42_matched_pair",
    "Bpak.C42_rejected_call"
   ],
   "note": ""
  },
  {
   "property": "C43",
   "status": "proved",
   "theorems": [
    "Bpak.C43_error_strings_distinct",
    "Bpak.C43_unknown_iff",
    "Bpak.C43_error_string_injective"
   ],
   "note": ""
  },
  {
   "property": "C44",
   "status": "proved",
   "theorems": [
    "Bpak.C44_add_transport_meta"
   ],
   "note": ""
  },
  {
   "property": "C45",
   "status": "partial",
   "theorems": [
    "Bpak.C45_memory_safe_is_false",
    "Bpak.C45_memory_safe_partial"
   ],
   "note": "False for streams with a negative length (witness); proved for all others, for every chunking."
  },
  {
   "property": "C46",
   "status": "proved",
   "theorems": [
    "Bpak.C46_truncation_not_reported",
    "Bpak.C46_truncated_output_is_prefix"
   ],
   "note": "The size check argument is the theorem; C46_truncation_not_reported shows that the decoder alone does not notice."
  },
  {
   "property": "C47",
   "status": "proved",
   "theorems": [
    "Bpak.C47_delete_all",
    "Bpak.C47_full_table_is_false"
   ],
   "note": ""
  },
  {
   "property": "C48",
   "status": "proved",
   "theorems": [
    "Bpak.C48_padding",
    "Bpak.C48_header_stays_valid"
   ],
   "note": ""
  },
  {
   "property": "C49",
   "status": "proved",
   "theorems": [
    "Bpak.C49_raw_signature",
    "Bpak.C49_bound_is_false"
   ],
   "note": ""
  },
  {
   "property": "C50",
   "status": "proved",
   "theorems": [
    "Bpak.C50_memory_safe"
   ],
   "note": ""
  },
  {
   "property": "C51",
   "status": "proved",
   "theorems": [
    "Bpak.C51_compressed_terminates",
    "Bpak.C51_terminates"
   ],
   "note": ""
  },
  {
   "property": "C52",
   "status": "proved",
   "theorems": [
    "Bpak.C52_id_to_string_sound",
    "Bpak.C52_id_to_string_injective"
   ],
   "note": ""
  },
  {
   "property": "C53",
   "status": "partial",
   "theorems": [
    "Bpak.C53_hashed_where_read_is_false",
    "Bpak.C53_hashed_where_read_partial"
   ],
   "note": "False for valid headers with gaps in the part table; proved for all tables the API can leave."
  },
  {
   "property": "C54",
   "status": "partial",
   "theorems": [
    "Bpak.C54_memory_safe_is_false",
    "Bpak.C54_memory_safe_partial"
   ],
   "note": "False if root-hash or salt entries are shorter than 32 bytes; proved for all others."
  },
  {
   "property": "C55",
   "status": "proved",
   "theorems": [
    "Bpak.C55_part_sha256"
   ],
   "note": ""
  },
  {
   "property": "C56",
   "status": "proved",
   "theorems": [
    "Bpak.C56_open_existing",
    "Bpak.C56_open_new",
    "Bpak.C56_open_short_file_is_false"
   ],
   "note": ""
  },
  {
   "property": "C57",
   "status": "proved",
   "theorems": [
    "Bpak.C57_crash_while_adding"
   ],
   "note": ""
  },
  {
   "property": "C58",
   "status": "partial",
   "theorems": [
    "Bpak.C58_terminates_is_false",
    "Bpak.C58_terminates_partial"
   ],
   "note": "False if the input shrinks between stat and read (for every package); proved for unchanged inputs."
  },
  {
   "property": "C59",
   "status": "partial",
   "theorems": [
    "Bpak.C59_add_key_is_false",
    "Bpak.C59_add_key_partial"
   ],
   "note": "False for every key size that leaves two or more padding bytes (all real keys): undefined behaviour. Proved for the others."
  },
  {
   "property": "C60",
   "status": "partial",
   "theorems": [
    "Bpak.C60_verify_in_bounds_is_false",
    "Bpak.C60_verify_in_bounds_partial"
   ],
   "note": "False for a signature size above 512; proved up to 512."
  },
  {
   "property": "C61",
   "status": "proved",
   "theorems": [
    "Bpak.C61_history"
   ],
   "note": ""
  },
  {
   "property": "C62",
   "status": "partial",
   "theorems": [
    "Bpak.C62_crash_while_deleting_is_false",
    "Bpak.C62_crash_while_deleting_partial"
   ],
   "note": "False before the header is rewritten; proved after."
  },
  {
   "property": "C63",
   "status": "proved",
   "theorems": [
    "Bpak.C63_compressed_size"
   ],
   "note": ""
  },
  {
   "property": "C64",
   "status": "proved",
   "theorems": [
    "Bpak.C64_delta_size",
    "Bpak.C64_compressed_delta_size"
   ],
   "note": ""
  },
  {
   "property": "C65",
   "status": "proved",
   "theorems": [
    "Bpak.C65_add_file_with_tree",
    "Bpak.C65_success_iff"
   ],
   "note": ""
  },
  {
   "property": "C66",
   "status": "partial",
   "theorems": [
    "Bpak.C66_all_or_nothing_is_false",
    "Bpak.C66_empty_file_half_added",
    "Bpak.C66_large_file_undefined",
    "Bpak.C66_tree_id_taken",
    "Bpak.C66_all_or_nothing_partial"
   ],
   "note": "False for every length not a multiple of 4096, for the empty file and for a taken tree id; proved for the refusals before anything is written."
  },
  {
   "property": "C67",
   "status": "proved",
   "theorems": [
    "Bpak.C67_crash_while_adding_tree"
   ],
   "note": ""
  },
  {
   "property": "C68",
   "status": "proved",
   "theorems": [
    "Bpak.C68_history_with_trees",
    "Bpak.C68_built_package_verifies"
   ],
   "note": ""
  },
  {
   "property": "C69",
   "status": "partial",
   "theorems": [
    "Bpak.C69_reads_outside_iff",
    "Bpak.C69_reads_inside_is_false",
    "Bpak.C69_reads_inside_partial",
    "Bpak.C69_writes_inside_is_false",
    "Bpak.C69_writes_inside_partial"
   ],
   "note": "Reading: iff-characterisation, false for short entries. Writing: false for salt/root hash and buffers below 65 bytes; proved otherwise."
  },
  {
   "property": "C70",
   "status": "proved",
   "theorems": [
    "Bpak.C70_text",
    "Bpak.C70_version_as_stored",
    "Bpak.C70_terminated_is_false"
   ],
   "note": ""
  },
  {
   "property": "C71",
   "status": "partial",
   "theorems": [
    "Bpak.C71_load_sound",
    "Bpak.C71_load_exact_partial"
   ],
   "note": "Soundness proved for any file. Completeness for keys up to 512 bytes; larger ones overrun a buffer (C72)."
  },
  {
   "property": "C72",
   "status": "partial",
   "theorems": [
    "Bpak.C72_in_bounds_is_false",
    "Bpak.C72_in_bounds_partial"
   ],
   "note": "False for keys above 512 bytes (for every history); proved otherwise."
  },
  {
   "property": "C73",
   "status": "partial",
   "theorems": [
    "Bpak.C73_integrity_is_false",
    "Bpak.C73_verified_integrity_partial"
   ],
   "note": "False: the loader does not verify the payload; proved for payloads the caller verified."
  },
  {
   "property": "C74",
   "status": "partial",
   "theorems": [
    "Bpak.C74_marks_partial",
    "Bpak.C74_removed_entry_is_false",
    "Bpak.C74_marks_is_false"
   ],
   "note": "False for removed entries, changed lengths and new parts (witnesses and a general theorem); proved for the remaining cases, with the exact rows."
  },
  {
   "property": "C75",
   "status": "partial",
   "theorems": [
    "Bpak.C75_set_text_in_place",
    "Bpak.C75_set_text_grow",
    "Bpak.C75_set_text_partial",
    "Bpak.C75_unknown_name",
    "Bpak.C75_set_text_overruns_is_false",
    "Bpak.C75_set_text_is_false"
   ],
   "note": "False where deletion cuts later entries (C08), for a full table and for texts of 65535 bytes; proved otherwise."
  },
  {
   "property": "C76",
   "status": "proved",
   "theorems": [
    "Bpak.C76_set_integer",
    "Bpak.C76_not_a_number",
    "Bpak.C76_set_id",
    "Bpak.C76_wrong_size",
    "Bpak.C76_malformed_is_false"
   ],
   "note": ""
  },
  {
   "property": "C77",
   "status": "proved",
   "theorems": [
    "Bpak.C77_id_for_name_or_ref",
    "Bpak.C77_id_is_false",
    "Bpak.C77_set_ids",
    "Bpak.C77_ids_ignored_is_false"
   ],
   "note": ""
  },
  {
   "property": "C78",
   "status": "proved",
   "theorems": [
    "Bpak.C78_add_meta",
    "Bpak.C78_refused",
    "Bpak.C78_long_file_is_false"
   ],
   "note": ""
  },
  {
   "property": "C79",
   "status": "proved",
   "theorems": [
    "Bpak.C79_create",
    "Bpak.C79_create_refused"
   ],
   "note": ""
  },
  {
   "property": "C80",
   "status": "proved",
   "theorems": [
    "Bpak.C80_external_signing",
    "Bpak.C80_long_signature_is_false",
    "Bpak.C80_show_hash_is_false"
   ],
   "note": ""
  },
  {
   "property": "C81",
   "status": "proved",
   "theorems": [
    "Bpak.C81_report",
    "Bpak.C81_warning",
    "Bpak.C81_sha512_is_false",
    "Bpak.C81_stale_text_is_false"
   ],
   "note": ""
  },
  {
   "property": "C82",
   "status": "proved",
   "theorems": [
    "Bpak.C82_show_part",
    "Bpak.C82_show_part_hash",
    "Bpak.C82_show_meta"
   ],
   "note": ""
  },
  {
   "property": "C83",
   "status": "partial",
   "theorems": [
    "Bpak.C83_verify_with_keystore_partial"
   ],
   "note": "Proved for keys up to 512 bytes (C72)."
  },
  {
   "property": "C84",
   "status": "proved",
   "theorems": [
    "Bpak.C84_session",
    "Bpak.C84_failed_command_changes_nothing",
    "Bpak.C84_no_file"
   ],
   "note": ""
  },
  {
   "property": "C85",
   "status": "proved",
   "theorems": [
    "Bpak.C85_add_extract",
    "Bpak.C85_hex_name_is_false",
    "Bpak.C85_extract_meta",
    "Bpak.C85_select_one"
   ],
   "note": ""
  },
  {
   "property": "C86",
   "status": "proved",
   "theorems": [
    "Bpak.C86_add_part",
    "Bpak.C86_add_part_with_tree"
   ],
   "note": ""
  },
  {
   "property": "C87",
   "status": "proved",
   "theorems": [
    "Bpak.C87_delete",
    "Bpak.C87_delete_all"
   ],
   "note": ""
  },
  {
   "property": "C88",
   "status": "proved",
   "theorems": [
    "Bpak.C88_transport_add"
   ],
   "note": ""
  },
  {
   "property": "C89",
   "status": "partial",
   "theorems": [
    "Bpak.C89_python_session",
    "Bpak.C89_exception_changes_nothing",
    "Bpak.C89_call_returns_partial"
   ],
   "note": "Session theorem and exceptions proved for all allowed programs; that every call returns fails only for add_key (C59)."
  },
  {
   "property": "C90",
   "status": "partial",
   "theorems": [
    "Bpak.C90_integer_attributes",
    "Bpak.C90_hash_kind_partial",
    "Bpak.C90_hash_kind_is_false",
    "Bpak.C90_u32",
    "Bpak.C90_range_check_is_false"
   ],
   "note": "Assigning hash_kind does not recompute the payload hash (C90_hash_kind_is_false); the rest is proved."
  },
  {
   "property": "C91",
   "status": "proved",
   "theorems": [
    "Bpak.C91_raw_data",
    "Bpak.C91_no_entry",
    "Bpak.C91_as_string",
    "Bpak.C91_text_round_trip"
   ],
   "note": ""
  },
  {
   "property": "C92",
   "status": "proved",
   "theorems": [
    "Bpak.C92_part_id",
    "Bpak.C92_taken_id_is_false",
    "Bpak.C92_id_zero_is_false",
    "Bpak.C92_meta_key"
   ],
   "note": ""
  },
  {
   "property": "C93",
   "status": "proved",
   "theorems": [
    "Bpak.C93_add_meta",
    "Bpak.C93_bad_arguments",
    "Bpak.C93_large_is_false",
    "Bpak.C93_refused_is_false",
    "Bpak.C93_fresh_entry_is_false"
   ],
   "note": ""
  },
  {
   "property": "C94",
   "status": "proved",
   "theorems": [
    "Bpak.C94_signature",
    "Bpak.C94_long_signature_is_false",
    "Bpak.C94_signature_length_is_false",
    "Bpak.C94_failed_sign_is_false"
   ],
   "note": ""
  },
  {
   "property": "C95",
   "status": "proved",
   "theorems": [
    "Bpak.C95_encoded_package_is_false",
    "Bpak.C95_encode_twice_is_false"
   ],
   "note": "The theorems state what happens instead of the natural claim."
  },
  {
   "property": "C96",
   "status": "proved",
   "theorems": [
    "Bpak.C96_offsets_session",
    "Bpak.C96_offsets_history",
    "Bpak.C96_offsets_python"
   ],
   "note": ""
  },
  {
   "property": "C97",
   "status": "proved",
   "theorems": [
    "Bpak.C97_any_file",
    "Bpak.C97_generate_success",
    "Bpak.C97_size_is_false",
    "Bpak.C97_generate_failure",
    "Bpak.C97_symbols"
   ],
   "note": ""
  },
  {
   "property": "C98",
   "status": "partial",
   "theorems": [
    "Bpak.C98_static_keystore_partial",
    "Bpak.C98_verified_is_false"
   ],
   "note": "Proved for keys up to 512 bytes (for larger ones loading from the package overruns a buffer, C72); the mark 'verified' is false (C98_verified_is_false)."
  },
  {
   "property": "C99",
   "status": "partial",
   "theorems": [
    "Bpak.C99_lines_partial",
    "Bpak.C99_send_and_restore_partial",
    "Bpak.C99_encode_other_package",
    "Bpak.C99_no_origin_is_false",
    "Bpak.C99_python_partial",
    "Bpak.C99_python_output_object_is_false"
   ],
   "note": "Package ids must lie at the same place in both headers and the package must have a part, as for C38; an output path that is also the input or the origin is not modelled."
  },
  {
   "property": "C100",
   "status": "proved",
   "theorems": [
    "Bpak.C100_lzma_diff_then_patch",
    "Bpak.C100_lzma_returns"
   ],
   "note": "liblzma itself is a parameter with the promises of its documentation (Spec/Lzma.lean), among them that the encoder does not fail (no lack of memory); a simple storing coder is shown to keep them (store_laws)."
  },
  {
   "property": "C101",
   "status": "proved",
   "theorems": [
    "Bpak.C101_load_public",
    "Bpak.C101_load_private",
    "Bpak.C101_codes",
    "Bpak.C101_parse_public",
    "Bpak.C101_curve_keys",
    "Bpak.C101_verify",
    "Bpak.C101_rsa_is_false",
    "Bpak.C101_generate_rsa_is_false"
   ],
   "note": "mbedtls' pk layer is a parameter with six promises (Spec/Crypto.lean, MbedLaws), for which a concrete instance is given. The memory claim is false for RSA-4096 (C101_rsa_is_false, C101_generate_rsa_is_false)."
  },
  {
   "property": "C102",
   "status": "proved",
   "theorems": [
    "Bpak.C102_accept_means",
    "Bpak.C102_no_key_never_accepts",
    "Bpak.C102_sign_then_verify",
    "Bpak.C102_own_key",
    "Bpak.C102_sign",
    "Bpak.C102_keystore"
   ],
   "note": "Sessions that delete parts or change metadata with `bpak set` are not covered here (C83 and C33 cover verification of any file). Keys of over 512 bytes in a keystore: C72."
  },
  {
   "property": "C103",
   "status": "proved",
   "theorems": [
    "Bpak.C103_part_attributes",
    "Bpak.C103_part_gone",
    "Bpak.C103_lookup",
    "Bpak.C103_meta_attributes",
    "Bpak.C103_id",
    "Bpak.C103_get_part_zero",
    "Bpak.C103_sizes",
    "Bpak.C103_digest",
    "Bpak.C103_verify"
   ],
   "note": "For verify a stored signature size of at most 512 is assumed (C60)."
  },
  {
   "property": "C104",
   "status": "proved",
   "theorems": [
    "Bpak.C104_suffix_array",
    "Bpak.C104_no_failure",
    "Bpak.C104_unique",
    "Bpak.C104_exists"
   ],
   "note": "lib/sais.c is modelled cell by cell, with the code's own reuse of the free space; the recursion is proved for every depth. int64_t values are unbounded integers in the model."
  },
  {
   "property": "C105",
   "status": "partial",
   "theorems": [
    "Bpak.C105_send_and_restore_partial",
    "Bpak.C105_init",
    "Bpak.C105_round_trip_partial",
    "Bpak.C105_round_trip_max_byte_partial",
    "Bpak.C105_same_file_partial",
    "Bpak.C105_reads_past_end",
    "Bpak.C105_short_origin"
   ],
   "note": "Proved for every pair of files in which no rest of the new file sorts behind all suffixes of the origin (among them: a file against itself; an origin with a byte above all of the new file), and from there for whole packages sent with the transport command (C105_send_and_restore_partial). False otherwise: C105_reads_past_end, C105_short_origin."
  },
  {
   "property": "C106",
   "status": "proved",
   "theorems": [
    "Bpak.C106_no_silent_loss",
    "Bpak.C106_open",
    "Bpak.C106_with_room",
    "Bpak.C106_session",
    "Bpak.C106_failed_add",
    "Bpak.C106_retry_is_refused",
    "Bpak.C106_failed_add_is_forgotten_is_false"
   ],
   "note": "Write errors as reported by fwrite; the calls are those of lib/pkg.c, lib/pkg_create.c and lib/pkg_sign.c that write. C106_failed_add_is_forgotten_is_false and C106_retry_is_refused show what is wrong with the handle after a failed add. Output streams of extract and of the transport encoder are not covered."
  },
  {
   "property": "C107",
   "status": "partial",
   "theorems": [
    "Bpak.C107_only_the_header_partial",
    "Bpak.C107_next_call_reports",
    "Bpak.C107_success_means_stored_is_false"
   ],
   "note": "The full claim is refuted for every package (C107_success_means_stored_is_false); proved: only the header can be missing, and the next call reports."
  },
  {
   "property": "C108",
   "status": "proved",
   "theorems": [
    "Bpak.C108_status",
    "Bpak.C108_verify_means",
    "Bpak.C108_verify_line",
    "Bpak.C108_verified_signature",
    "Bpak.C108_verify_help_is_false"
   ],
   "note": "C108_verify_means is an equivalence for every command line; C108_verify_line its plain instances; C108_verified_signature what acceptance means. getopt_long is modelled (Model/Getopt.lean), POSIXLY_CORRECT unset. C108_verify_help_is_false: -h makes status 0 without verification."
  },
  {
   "property": "C109",
   "status": "proved",
   "theorems": [
    "Bpak.C109_frame",
    "Bpak.C109_unnamed",
    "Bpak.C109_refused",
    "Bpak.C109_read_only"
   ],
   "note": "Two different path strings are taken as two different files (no links). A run that writes to a path it has open for reading at the same time is a separate outcome (not modelled)."
  },
  {
   "property": "C110",
   "status": "proved",
   "theorems": [
    "Bpak.C110_option_order",
    "Bpak.C110_verbose"
   ],
   "note": ""
  },
  {
   "property": "C111",
   "status": "proved",
   "theorems": [
    "Bpak.C111_line",
    "Bpak.C111_lines_are_a_session",
    "Bpak.C111_contents"
   ],
   "note": "Of a line that works on the package the same is asked as of a command in C84 (Allowed: no empty names, sizes below 2^63, tree adds succeed)."
  },
  {
   "property": "C112",
   "status": "proved",
   "theorems": [
    "Bpak.C112_further_operands",
    "Bpak.C112_third_operand",
    "Bpak.C112_verify_two_files",
    "Bpak.C112_transport_letters",
    "Bpak.C112_generate_unknown",
    "Bpak.C112_dashes",
    "Bpak.C112_sign_nothing"
   ],
   "note": "All findings: each theorem states what the code does instead, for every line of the shape."
  },
  {
   "property": "C113",
   "status": "proved",
   "theorems": [
    "Bpak.C113_extract_line",
    "Bpak.C113_extract",
    "Bpak.C113_show_line",
    "Bpak.C113_compare_line",
    "Bpak.C113_generate_line"
   ],
   "note": "An output path that is also the package is not modelled (the code truncates the package while it reads it)."
  },
  {
   "property": "C114",
   "status": "proved",
   "theorems": [
    "Bpak.C114_sign_then_verify",
    "Bpak.C114_own_key",
    "Bpak.C114_keystore"
   ],
   "note": "RSA-4096 keys cannot be read from keystores (C101), so the keystore part excludes them. A system whose random generator cannot be seeded is excluded, as signing then fails."
  },
  {
   "property": "C115",
   "status": "proved",
   "theorems": [
    "Bpak.C115_metadata",
    "Bpak.C115_extract",
    "Bpak.C115_extract_line"
   ],
   "note": "Excluded from the histories, because the code is wrong there: growing or deleting an entry before a longer one (the longer one is cut, C08/C75), `set` on a transport entry, 24 bytes of a transport entry that nothing writes (C44)."
  },
  {
   "property": "C116",
   "status": "partial",
   "theorems": [
    "Bpak.C116_suffix_sort",
    "Bpak.C116_session",
    "Bpak.C116_session_partial",
    "Bpak.C116_transport",
    "Bpak.C116_transport_partial",
    "Bpak.C116_commands_partial",
    "Bpak.C116_transport_command_partial",
    "Bpak.C116_key_context_left",
    "Bpak.C116_decoder_left",
    "Bpak.C116_transport_command_left",
    "Bpak.C116_out_of_memory"
   ],
   "note": "Partial theorems miss exactly what the code leaves: key contexts, the files of `bpak transport`, LZMA decoders of refused data; each refuted by a concrete run. Data is left out of this model, so it has more runs than the program."
  },
  {
   "property": "C117",
   "status": "partial",
   "theorems": [
    "Bpak.C117_life_partial",
    "Bpak.C117_failed_constructor",
    "Bpak.C117_call_after_close"
   ],
   "note": "The failing constructor is refuted for every failure after fopen (C117_failed_constructor)."
  },
  {
   "property": "C118",
   "status": "partial",
   "theorems": [
    "Bpak.C118_session_partial",
    "Bpak.C118_transport_partial",
    "Bpak.C118_wrong_function"
   ],
   "note": "Refuted for keys and LZMA (C118_wrong_function)."
  },
  {
   "property": "C119",
   "status": "proved",
   "theorems": [
    "Bpak.C119_tables",
    "Bpak.C119_reads",
    "Bpak.C119_unambiguous",
    "Bpak.C119_spelling",
    "Bpak.C119_unreadable",
    "Bpak.C119_flag",
    "Bpak.C119_first"
   ],
   "note": ""
  },
  {
   "property": "C120",
   "status": "partial",
   "theorems": [
    "Bpak.Hk.C120_hash_functions",
    "Bpak.Hk.C120_crypto_functions",
    "Bpak.Hk.C120_payload_hash",
    "Bpak.Hk.C120_verify",
    "Bpak.Hk.C120_verify_partial",
    "Bpak.Hk.C120_failure_hidden",
    "Bpak.Hk.C120_sign",
    "Bpak.Hk.C120_sign_partial",
    "Bpak.Hk.C120_sign_failed",
    "Bpak.Hk.C120_stale_memory_checked",
    "Bpak.Hk.C120_stale_memory_signed"
   ],
   "note": "Refuted for the hash of the header: a hash function that fails is not noticed (C120_failure_hidden), so that uninitialised memory is verified (C120_stale_memory_checked) or signed (C120_stale_memory_signed) in its place. Everything else is proved for all installed functions; the _partial theorems add what holds of the header hash when no function fails."
  },
  {
   "property": "C121",
   "status": "partial",
   "theorems": [
    "Bpak.C121_extract_file",
    "Bpak.C121_extract_file_partial",
    "Bpak.C121_command",
    "Bpak.C121_command_partial",
    "Bpak.C121_with_room",
    "Bpak.C121_part_partial",
    "Bpak.C121_lost_output_reported"
   ],
   "note": "The claim that success means a complete output is refuted for errors that show late (C121_lost_output_reported, for every extraction that is not empty); the _partial theorems prove it when every write error is reported by the write itself."
  },
  {
   "property": "C122",
   "status": "proved",
   "theorems": [
    "Bpak.C122_success_means_tree",
    "Bpak.C122_error_is_the_callbacks",
    "Bpak.C122_no_failure_builds",
    "Bpak.C122_any_length"
   ],
   "note": ""
  },
  {
   "property": "C123",
   "status": "proved",
   "theorems": [
    "Bpak.C123_hash_of_what_is_there",
    "Bpak.C123_tree_verdict",
    "Bpak.C123_verdict_or_failure",
    "Bpak.C123_accept_means",
    "Bpak.C123_wrong_is_refused"
   ],
   "note": ""
  },
  {
   "property": "C124",
   "status": "partial",
   "theorems": [
    "Bpak.C124_add_self_is_false",
    "Bpak.C124_add_self_partial",
    "Bpak.C124_add_self_content_partial"
   ],
   "note": "Refuted for every package that is not made of whole 4096-byte blocks (C124_add_self_is_false): each read asks for 4096 bytes whatever is left, so the last one also fetches what was just written, the unsigned counter passes zero and the copy goes on until the disk is full. The _partial theorems prove it for packages of whole blocks. Assumption HoldsBack: stdio holds back at most one block, none before the second read."
  },
  {
   "property": "C125",
   "status": "partial",
   "theorems": [
    "Bpak.C125_extract_self_is_false",
    "Bpak.C125_extract_self_absent_partial",
    "Bpak.C125_encode_self_is_false",
    "Bpak.C125_decode_self_is_false"
   ],
   "note": "Refuted for every extraction to the package's own path (C125_extract_self_is_false), and for encoding and decoding of every package whose first part is copied (C125_encode_self_is_false, C125_decode_self_is_false). The _partial theorem: a part that is not there. Missing: decoding beyond the first chunk, encodings whose first part is a delta."
  },
  {
   "property": "C126",
   "status": "proved",
   "theorems": [
    "Bpak.C126_applied_or_reported",
    "Bpak.C126_heatshrink",
    "Bpak.C126_lzma",
    "Bpak.C126_any_stream",
    "Bpak.C126_failure_is_final"
   ],
   "note": ""
  },
  {
   "property": "C127",
   "status": "proved",
   "theorems": [
    "Bpak.C127_decoded_or_reported",
    "Bpak.C127_any_package"
   ],
   "note": ""
  },
  {
   "property": "C128",
   "status": "proved",
   "theorems": [
    "Bpak.C128_plain",
    "Bpak.C128_heatshrink",
    "Bpak.C128_lzma",
    "Bpak.C128_end_to_end",
    "Bpak.C128_end_to_end_heatshrink"
   ],
   "note": ""
  }
 ]
}