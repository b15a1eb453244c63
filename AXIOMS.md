# Axioms of the theorems in MANIFEST.json

Generated by `tools/axioms.py` from `#print axioms`.

## Classical.choice, Quot.sound, propext

* `Drpm.C01_roundtrip`
* `Drpm.C01_C02_roundtrip_regions`
* `Drpm.C02_roundtrip`
* `Drpm.C03_terminates_in_bounds_partial`
* `Drpm.C03_empty`
* `Drpm.C03_no_wraparound`
* `Drpm.C03_violated`
* `Drpm.C04_matches_real`
* `Drpm.C05_search_state`
* `Drpm.C06_walk_partial`
* `Drpm.C06_internal`
* `Drpm.C06_violated`
* `Drpm.C07_roundtrip`
* `Drpm.C07_made`
* `Drpm.C07_old_length_truncated`
* `Drpm.C08_never_emitted`
* `Drpm.C08_adjust`
* `Drpm.C09_partial`
* `Drpm.C09_violated`
* `Drpm.C10_partial`
* `Drpm.C10_violated_counts`
* `Drpm.C11_partial`
* `Drpm.C11_violated`
* `Drpm.C11_violated_wrap`
* `Drpm.C12_roundtrip`
* `Drpm.C12_decode_fails_iff`
* `Drpm.C12_decode_table`
* `Drpm.C12_decode_range`
* `Drpm.C13_parse16`
* `Drpm.C13_parse32`
* `Drpm.C13_parse64`
* `Drpm.C13_be32_roundtrip`
* `Drpm.C13_be64_roundtrip`
* `Drpm.C13_be32_unparse`
* `Drpm.C13_be64_unparse`
* `Drpm.C14_parse_iff`
* `Drpm.C15_roundtrip`
* `Drpm.C16_encode_in_bounds`
* `Drpm.C17_made_partial`
* `Drpm.C17_accepts`
* `Drpm.C17_overflows`
* `Drpm.C17_tame`
* `Drpm.C18_verifies`
* `Drpm.C20_roundtrip`
* `Drpm.C20_accepted`
* `Drpm.C21_same_payload`
* `Drpm.C21_applied`
* `Drpm.C22_header_then_archive`
* `Drpm.C22_applied`
* `Drpm.C23_cache_exact_rpm`
* `Drpm.C23_cache_exact_files`
* `Drpm.C40_prelinked_partial`
* `Drpm.C23_delivers`
* `Drpm.C24_no_block_lost`
* `Drpm.C25_tables`
* `Drpm.C26_verified`
* `Drpm.C26_right`
* `Drpm.C26_made_rpmonly`
* `Drpm.C26_made_standard`
* `Drpm.C27_prefix_verbatim`
* `Drpm.C27_any_chunking`
* `Drpm.C27_succeeds`
* `Drpm.C27_too_short`
* `Drpm.C29_history`
* `Drpm.C29_chunking_irrelevant`
* `Drpm.C29_refines_rdN`
* `Drpm.C29_memory_safe`
* `Drpm.C31_detected`
* `Drpm.C31_uncompressed`
* `Drpm.C32_partial`
* `Drpm.C32_violated_magic`
* `Drpm.C33_valid`
* `Drpm.C33_usable`
* `Drpm.C34_strings`
* `Drpm.C34_from_start`
* `Drpm.C35_copy`
* `Drpm.C36_accessors`
* `Drpm.C38_full`
* `Drpm.C38_full_original`
* `Drpm.C38_full_sound`
* `Drpm.C38_size`
* `Drpm.C38_size_sound`
* `Drpm.C39_partial`
* `Drpm.C39_violated`
* `Drpm.C40_soon_partial`
* `Drpm.C40_partial`
* `Drpm.C40_forward_partial`
* `Drpm.C40_cache_soon_partial`
* `Drpm.C40_cache_forward_partial`
* `Drpm.C43_partial`
* `Drpm.C44_partial`
* `Drpm.C44_violated`
* `Drpm.C44_files`
* `Drpm.C45_first_tag`
* `Drpm.C47_violated`
* `Drpm.C47_names_partial`
* `Drpm.C47_refused_partial`
* `Drpm.C48_rpmonly`
* `Drpm.C48_standard`
* `Drpm.C48_installed`
* `Drpm.C48_demo_rpmonly`
* `Drpm.C48_demo_standard`
* `Drpm.C48_demo_installed`
* `Drpm.C50_strerror`
* `Drpm.C51_partial`
* `Drpm.C51_violated`
* `Drpm.C54_files_partial`
* `Drpm.C55_check`
* `Drpm.C55_digests`
* `Drpm.C55_sequence`
* `Drpm.C56_sequence`
* `Drpm.C56_delta`
* `Drpm.C56_rpm`
* `Drpm.C56_files`
* `Drpm.C57_memory_rpm`
* `Drpm.C57_memory_files`
* `Drpm.C57_memory_disk`
* `Drpm.C59_gzip`
* `Drpm.C59_bzip2`
* `Drpm.C59_lzma`
* `Drpm.C59_lzip`
* `Drpm.C59_none`
* `Drpm.C59_partial`
* `Drpm.C60_gzip`
* `Drpm.C60_bzip2`
* `Drpm.C60_lzma`
* `Drpm.C60_zstd`
* `Drpm.C60_lzip`
* `Drpm.C61_partial`
* `Drpm.C61_refused`
* `Drpm.C61_violated`
* `Drpm.C61_violated_api`
* `Drpm.C62_head`
* `Drpm.C62_plain`
* `Drpm.C62_unpacked`
* `Drpm.C62_both`
* `Drpm.C62_chunks`
* `Drpm.C63_safe`
* `Drpm.C63_short`
* `Drpm.C63_nameless`
* `Drpm.C64_roundtrip`
* `Drpm.C65_compressor`
* `Drpm.C65_format`
* `Drpm.C65_level_violated`
* `Drpm.C67_mark`
* `Drpm.C67_delta`
* `Drpm.C67_bare`
* `Drpm.C68_rpmonly`
* `Drpm.C68_standard`
* `Drpm.C68_installed`
* `Drpm.C68_demo_rpmonly`
* `Drpm.C68_demo_standard`
* `Drpm.C68_demo_installed`
* `Drpm.C40_forward_servable`
* `Drpm.C70_refused`
* `Drpm.C70_applied`
* `Drpm.C71_partial`
* `Drpm.C71_files_partial`
* `Drpm.C53_partial`
* `Drpm.C53_files_partial`
* `Drpm.C53_archive`
* `Drpm.C53_violated_short`
* `Drpm.C72_read_destroy`
* `Drpm.C73_failed_read_partial`
* `Drpm.C74_sequence_package`
* `Drpm.C75_check_partial`
* `Drpm.C76_partial`
* `Drpm.C77_package_partial`
* `Drpm.C77_installed_partial`
* `Drpm.C52_lists`
* `Drpm.C52_check`
* `Drpm.C52_sequence`
* `Drpm.C78_prefix`
* `Drpm.C78_made`
* `Drpm.C78_head`
* `Drpm.C78_apply`
* `Drpm.C78_files`
* `Drpm.C79_cut`
* `Drpm.C81_rpmonly`
* `Drpm.C81_standard`
* `Drpm.C82_unchanged`
* `Drpm.C82_rpmonly`
* `Drpm.C83_partial`
* `Drpm.C83_files_partial`
* `Drpm.C84_check_partial`
* `Drpm.C84_sequence_partial`
* `Drpm.C84_files_partial`
* `Drpm.C84_sequence_files_partial`
* `Drpm.C85_once`
* `Drpm.C85_all`
* `Drpm.C86_unlzma`
* `Drpm.C87_partial`
* `Drpm.C87_demo`
* `Drpm.C88_history`
* `Drpm.C88_faults`
* `Drpm.C88_files`
* `Drpm.C89_apply_partial`
* `Drpm.C89_files_partial`
* `Drpm.C90_names`
* `Drpm.C90_files`
* `Drpm.C91_archive`
* `Drpm.C91_files`
* `Drpm.C92_makes_rpmonly`
* `Drpm.C92_makes_standard`
* `Drpm.C92_rpmonly`
* `Drpm.C92_standard`
* `Drpm.C92_installed`
* `Drpm.C92_demo`
* `Drpm.C93_reads`
* `Drpm.C93_standard`
* `Drpm.C93_installed`
* `Drpm.C93_made`
* `Drpm.C93_demo`
* `Drpm.C93_demo_installed`
* `Drpm.C94_installed`
* `Drpm.C95_threads`
* `Drpm.C95_ends`
* `Drpm.C95_call`
* `Drpm.C96_chain`
* `Drpm.C96_order`
* `Drpm.C97_diff`
* `Drpm.C97_rpmonly`
* `Drpm.C97_standard`
* `Drpm.C98_violated_make`
* `Drpm.C98_violated_apply`
* `Drpm.C99_installed_partial`
* `Drpm.C100_verified`
* `Drpm.C100_right`
* `Drpm.C100_safe_partial`
* `Drpm.C101_apply`
* `Drpm.C102_checks`
* `Drpm.C102_package`
* `Drpm.C102_installed`
* `Drpm.C103_read`
* `Drpm.C103_partial`
* `Drpm.C103_violated`
* `Drpm.C104_drpm_read`
* `Drpm.C104_drpm_check`
* `Drpm.C104_drpm_apply`
* `Drpm.C104_accepted`
* `Drpm.C104_refused`
* `Drpm.C104_pieces_partial`
* `Drpm.C105_make`
* `Drpm.C105_partial`
* `Drpm.C105_violated`
* `Drpm.C105_apply`
* `Drpm.C105_delta`
* `Drpm.C105_undisturbed`
* `Drpm.C105_rpmonly`
* `Drpm.C106_partial`
* `Drpm.C106_files_partial`
* `Drpm.C106_violated`

## Quot.sound, propext

* `Drpm.C05_rolling`
* `Drpm.C08_roundtrip`
* `Drpm.C08_representation`
* `Drpm.C12_encode_fails_iff`
* `Drpm.C13_be32_bigEndian`
* `Drpm.C13_be64_bigEndian`
* `Drpm.C14_roundtrip`
* `Drpm.C17_step_partial`
* `Drpm.C17_accepted_partial`
* `Drpm.C19_roundtrip`
* `Drpm.C19_accepted`
* `Drpm.C21_violated`
* `Drpm.C21_violated_twice`
* `Drpm.C28_file_and_memory`
* `Drpm.C28_uncompressed`
* `Drpm.C30_partial`
* `Drpm.C30_violated`
* `Drpm.C30_violated_truncation`
* `Drpm.C31_unambiguous`
* `Drpm.C33_error_unchanged_partial`
* `Drpm.C34_safe_partial`
* `Drpm.C37_split`
* `Drpm.C37_injective`
* `Drpm.C40_violated_order`
* `Drpm.C40_violated_skipped`
* `Drpm.C40_violated_many`
* `Drpm.C40_violated_link`
* `Drpm.C41_growth`
* `Drpm.C42_room`
* `Drpm.C46_consecutive`
* `Drpm.C47_partial`
* `Drpm.C47_violated_zeroed`
* `Drpm.C54_partial`
* `Drpm.C54_violated`
* `Drpm.C55_not_installed`
* `Drpm.C57_limit`
* `Drpm.C58_partial`
* `Drpm.C58_violated`
* `Drpm.C59_violated`
* `Drpm.C60_roundtrip`
* `Drpm.C63_refused`
* `Drpm.C65_level_partial`
* `Drpm.C66_files`
* `Drpm.C66_none`
* `Drpm.C69_refused`
* `Drpm.C69_made`
* `Drpm.C53_violated_name`
* `Drpm.C73_violated`
* `Drpm.C75_violated_leak`
* `Drpm.C75_violated_free`
* `Drpm.C75_violated_open`
* `Drpm.C76_violated_new`
* `Drpm.C76_violated_write`
* `Drpm.C76_violated_options`
* `Drpm.C76_violated_sequence`
* `Drpm.C76_violated_free`
* `Drpm.C76_violated_hash`
* `Drpm.C76_violated_patches`
* `Drpm.C77_violated_leak`
* `Drpm.C77_violated_installed`
* `Drpm.C77_violated_free`
* `Drpm.C77_violated_cache`
* `Drpm.C77_violated_codec`
* `Drpm.C79_success_partial`
* `Drpm.C79_prefix`
* `Drpm.C79_refused`
* `Drpm.C79_faultless`
* `Drpm.C79_violated`
* `Drpm.C80_success`
* `Drpm.C80_prefix`
* `Drpm.C80_faultless`
* `Drpm.C86_gunzip`
* `Drpm.C86_bunzip`
* `Drpm.C86_unzstd`
* `Drpm.C86_lzip_piece`
* `Drpm.C86_finish_lzma`
* `Drpm.C86_finish_zstd`
* `Drpm.C87_violated`
* `Drpm.C89_regular_partial`
* `Drpm.C89_check`
* `Drpm.C89_sequence`
* `Drpm.C89_sizes`
* `Drpm.C91_newc`
* `Drpm.C94_cache`
* `Drpm.C94_package`
* `Drpm.C94_apply`
* `Drpm.C98_make_partial`
* `Drpm.C98_apply_partial`
* `Drpm.C98_violated_part`
* `Drpm.C99_make_others`
* `Drpm.C99_make`
* `Drpm.C99_apply_partial`
* `Drpm.C99_violated_make`
* `Drpm.C99_violated_old`
* `Drpm.C99_violated_delta`
* `Drpm.C100_still`
* `Drpm.C101_make`
* `Drpm.C102_violated`
* `Drpm.C103_same`
* `Drpm.C103_violated_all`
* `Drpm.C104_violated`

## none

* `Drpm.C25_empty`
* `Drpm.C43_violated`
* `Drpm.C50_errors`

## propext

* `Drpm.C08_min_lost`
* `Drpm.C10_violated_name`
* `Drpm.C14_md5`
* `Drpm.C14_sha256`
* `Drpm.C17_violated_write`
* `Drpm.C17_violated_read`
* `Drpm.C17_violated_shift`
* `Drpm.C32_violated_short`
* `Drpm.C33_violated_patches`
* `Drpm.C33_violated_destroy`
* `Drpm.C35_defaults`
* `Drpm.C35_violated_self`
* `Drpm.C35_violated_memory`
* `Drpm.C36_null`
* `Drpm.C46_wraps`
* `Drpm.C49_partial`
* `Drpm.C49_violated`
* `Drpm.C65_algorithm`
* `Drpm.C66_counts`
* `Drpm.C71_violated_header`
* `Drpm.C71_violated_signature`
* `Drpm.C71_violated_counts`
* `Drpm.C80_untouched`
* `Drpm.C83_violated_skipped`
* `Drpm.C83_violated_elf`
* `Drpm.C83_violated_prelink`
* `Drpm.C84_violated_order`
* `Drpm.C84_violated_elf`
* `Drpm.C85_limit`
* `Drpm.C86_lzip_end`
* `Drpm.C86_write_lzma`
* `Drpm.C86_write_zstd`
* `Drpm.C86_violated`
* `Drpm.C89_nothing`
* `Drpm.C89_violated`
* `Drpm.C99_apply_others`
* `Drpm.C99_installed_others`
* `Drpm.C99_violated_installed`
* `Drpm.C100_violated`
