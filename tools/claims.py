m("C01", "proved", "C01_roundtrip C01_C02_roundtrip_regions")
m("C02", "proved", "C02_roundtrip C01_C02_roundtrip_regions")
m("C03", "partial", "C03_terminates_in_bounds_partial C03_empty C03_no_wraparound C03_violated",
  "Proved for new payloads of 0 bytes and of 16 bytes and more; for 1 to 15 bytes the code reads out of bounds (proved). The main loop is also modelled in size_t arithmetic and proved to give the same result.")
m("C04", "proved", "C04_matches_real")
m("C05", "proved", "C05_rolling C05_search_state")
m("C06", "partial", "C06_walk_partial C06_internal C06_violated",
  "Regions of 2 GiB and more reached by a seek are emitted wrongly (proved).")
m("C12", "proved", "C12_roundtrip C12_encode_fails_iff C12_decode_fails_iff C12_decode_table C12_decode_range",
  "Levels are stored in eight bits; the build with zstd is modelled.")
m("C13", "proved", "C13_be32_bigEndian C13_be64_bigEndian C13_parse16 C13_parse32 C13_parse64 C13_be32_roundtrip C13_be64_roundtrip C13_be32_unparse C13_be64_unparse")
m("C14", "proved", "C14_roundtrip C14_parse_iff C14_md5 C14_sha256")
m("C15", "proved", "C15_roundtrip")
m("C16", "proved", "C16_encode_in_bounds")
m("C17", "partial", "C17_violated_write C17_violated_read C17_violated_shift C17_step_partial C17_accepted_partial C17_made_partial C17_accepts C17_overflows C17_tame",
  "The full property is false of the code (three counterexamples proved). C17_accepts, C17_overflows and C17_tame say exactly which orders are accepted, which do harm and which do not, in terms of the format (OrderSpec), for numbers of at most 22 digits; longer ones shift too far (C17_violated_shift).")
m("C42", "proved", "C42_room")
m("C07", "proved", "C07_roundtrip C07_made C07_old_length_truncated",
  "Codec and rpmlib head are parameters; lengths of 4 GiB and more do not fit versions 1 and 2 (C07_old_length_truncated).")
m("C08", "proved", "C08_roundtrip C08_representation C08_min_lost C08_never_emitted C08_adjust",
  "C08_never_emitted covers the seeks, C08_adjust the offset adjustments.")
m("C09", "partial", "C09_partial C09_violated",
  "A declared external length within 2^32 of 2^64 lets copies outside pass (proved).")
m("C10", "partial", "C10_partial C10_violated_name C10_violated_counts",
  "The full property is false of the code (counterexamples proved).")
m("C11", "partial", "C11_partial C11_violated C11_violated_wrap",
  "The full property is false of the code (counterexamples proved).")
m("C31", "proved", "C31_detected C31_unambiguous C31_uncompressed")
m("C51", "partial", "C51_partial C51_violated",
  "The full property is false of the code (counterexample proved).")
m("C27", "proved", "C27_prefix_verbatim C27_any_chunking C27_succeeds C27_too_short",
  "The encoder is a parameter; fewer bytes than the uncompressed length is undefined behaviour (C27_too_short).")
m("C28", "proved", "C28_file_and_memory C28_uncompressed", "The encoder is a parameter.")
m("C29", "proved", "C29_history C29_chunking_irrelevant C29_refines_rdN C29_memory_safe", "The decoder is a parameter.")
m("C30", "partial", "C30_partial C30_violated C30_violated_truncation",
  "The full property is false of the code: errors that look like format errors end the stream silently (counterexamples proved).")
m("C32", "partial", "C32_partial C32_violated_short C32_violated_magic",
  "The full property is false of the code for add blocks stored uncompressed (counterexamples proved).")
m("C22", "proved", "C22_header_then_archive C22_applied")
m("C23", "proved", "C23_cache_exact_rpm C23_cache_exact_files C40_prelinked_partial C23_delivers",
  "For installed files that prelink changed, where several blocks are filled at once, see C40_prelinked_partial.")
m("C24", "proved", "C24_no_block_lost")
m("C25", "proved", "C25_tables C25_empty")
m("C18", "proved", "C18_verifies")
m("C20", "proved", "C20_roundtrip C20_accepted")
m("C21", "proved", "C21_same_payload C21_applied C21_violated C21_violated_twice",
  "Proved under the stated layout conditions; the violations show that each condition is needed.")
m("C41", "proved", "C41_growth")
m("C43", "partial", "C43_partial C43_violated",
  "Proved for altered archives below 4 GiB; the code cuts larger distances to 32 bits.")
m("C46", "proved", "C46_consecutive C46_wraps")
m("C33", "partial", "C33_valid C33_usable C33_error_unchanged_partial C33_violated_patches C33_violated_destroy",
  "Validity is proved for every history; add_patches that runs out of memory half way leaves an unusable string, and destroying a NULL handle follows it (counterexamples proved).")
m("C34", "partial", "C34_strings C34_from_start C34_safe_partial C33_violated_patches",
  "Proved for every history when memory is available; with failing allocations one case is undefined (counterexample proved).")
m("C35", "partial", "C35_defaults C35_copy C35_violated_self C35_violated_memory",
  "Copying an object onto itself, or running out of memory, loses strings while reporting success (counterexamples proved).")
m("C19", "proved", "C19_roundtrip C19_accepted", "For sequences below 2 GiB, where the size computed for the line does not wrap.")
m("C36", "proved", "C36_accessors C36_null")
m("C37", "proved", "C37_split C37_injective")
m("C50", "proved", "C50_strerror C50_errors")
m("C54", "partial", "C54_partial C54_files_partial C54_violated", "Proved for sequences below 2 GiB; above that the size passed to malloc wraps (counterexample proved).")
m("C38", "proved", "C38_full C38_full_original C38_full_sound C38_size C38_size_sound")
m("C39", "partial", "C39_partial C39_violated",
  "Proved for ELF files whose section names lie where the code can use them; otherwise it frees a pointer into the middle of a buffer (counterexample proved).")
m("C55", "proved", "C55_not_installed C55_check C55_digests C55_sequence")
m("C56", "proved", "C56_sequence C56_delta C56_rpm C56_files")
m("C52", "proved", "C52_lists C52_check C52_sequence", "The hash is a parameter that must not collide on the two record strings compared; file-list strings without NUL bytes and numbers that fit the header fields; the same digest algorithm in both packages.")
m("C57", "proved", "C57_memory_rpm C57_memory_files C57_memory_disk C57_limit")
m("C58", "partial", "C58_partial C58_violated", "Proved for digest strings of at most 65 characters; longer ones overflow the buffer (counterexample proved).")
m("C26", "proved", "C26_verified C26_right C26_made_rpmonly C26_made_standard", "MD5, rpmlib and the compressors are parameters. C26_made_*: under the conditions of C81, for the delta that drpm_make made.")
m("C44", "partial", "C44_partial C44_violated C44_files",
  "The full property is false of the code for every package with a compressed payload (proved); uncompressed payloads are reproduced.")
m("C45", "proved", "C45_first_tag")
m("C48", "proved", "C48_rpmonly C48_standard C48_installed C48_demo_rpmonly C48_demo_standard C48_demo_installed",
  "Package files, and installed files within the limits of C40; rpmlib, MD5 and the compression libraries are parameters with the stated conditions; sizes within the limits of the format.")
m("C49", "partial", "C49_partial C49_violated", "The full property is false of the code (proved for every call that gets that far).")
m("C40", "partial", "C40_soon_partial C40_partial C40_forward_partial C40_cache_soon_partial C40_cache_forward_partial C40_prelinked_partial C40_violated_order C40_violated_skipped C40_violated_many C40_violated_link",
  "The full property is false of the code (four proved counterexamples); proved whenever the archive order is the file-list order and every file that is needed again is needed before 50 others were (always so with at most 50 files, or if blocks are read in order), for single blocks and for the reconstruction through a cache with room for all blocks; with prelinked files, for at most 50 files and if no block begins inside a link target. The prelink program is a parameter.")
m("C47", "partial", "C47_partial C47_violated C47_violated_zeroed C47_names_partial C47_refused_partial",
  "The full property is false of the code: every drpm_make with two patch lists executes undefined behaviour (proved for all lists); proved are the decision on lists in memory and the calls without lists.")
m("C59", "partial", "C59_gzip C59_bzip2 C59_lzma C59_lzip C59_none C59_partial C59_violated",
  "Proved for all methods but zstd, whose loop drops what the decoder still holds when the input ends (counterexample proved for a decoder that keeps zstd's promises); for zstd proved if the decoder takes the end of the input last. The libraries are parameters that keep the promises of their manuals.")
m("C60", "proved", "C60_gzip C60_bzip2 C60_lzma C60_zstd C60_lzip C60_roundtrip C28_uncompressed", "For writes below 4 GiB each; the libraries are parameters that keep the promises of their manuals.")
m("C61", "partial", "C61_partial C61_refused C61_violated C61_violated_api", "Proved for the levels the libraries have, and for all levels of the other methods; levels 10 to 99 of gzip, bzip2 and lzma are undefined (counterexample proved).")
m("C62", "proved", "C62_head C62_plain C62_unpacked C62_both C62_chunks", "If both digests are asked for while decompressing, the one of the file leaves out the payload (C62_both); no caller asks for both.")
m("C63", "proved", "C63_safe C63_refused C63_short C63_nameless", "rpmlib's header reading is a parameter; the decompressors must return.")
m("C64", "proved", "C64_roundtrip")
m("C65", "partial", "C65_compressor C65_algorithm C65_format C65_level_partial C65_level_violated", "Proved for method, format and algorithm, and for levels that are numbers of one or two digits; other level strings are not refused (counterexamples proved).")
m("C66", "proved", "C66_files C66_counts C66_none")
m("C67", "proved", "C67_mark C67_delta C67_bare", "C67_bare: a header without a region is given one, so that it is not reproduced. The rest for headers whose data are all in one region, as rpmbuild makes them; rpmlib is a parameter that keeps the laws of RpmFileSpec.lean, which RpmToy.lean shows can be met.")
m("C68", "proved", "C68_rpmonly C68_standard C68_installed C68_demo_rpmonly C68_demo_standard C68_demo_installed C40_forward_servable", "With the conditions of C48, stated for package files; what C48 asked of rpmlib is derived from its laws. For installed files any number of files is allowed (Servable; C40_forward_servable gives a simple case), as far as the defects of C40 do not interfere.")
m("C69", "proved", "C69_refused C69_made")
m("C70", "proved", "C70_refused C70_applied")
m("C71", "partial", "C71_partial C71_files_partial C71_violated_header C71_violated_signature C71_violated_counts",
  "Holds for every delta file and package that avoid the defects named in the conditions (each with its own counterexample); missing: those inputs, for which the property is false (applying to installed files is C83).")
m("C53", "partial", "C53_partial C53_files_partial C53_archive C53_violated_name C53_violated_short",
  "Holds for all packages and options that avoid the defects named in the conditions; missing: those inputs, for which the property is false (CPIO names of length zero, new archives of 1 to 15 bytes, digests over 65 characters, levels the compressor does not have), old archives of 16 GiB and more, and failing allocations.")
m("C72", "proved", "C72_read_destroy", "In the ownership model (Own.lean): schedules stand for all inputs and all patterns of failing calls.")
m("C73", "partial", "C73_failed_read_partial C73_violated", "Holds unless one of five kinds of calls fails; for each of these the property is false (witness proved).")
m("C74", "proved", "C74_sequence_package", "In the ownership model (Own.lean).")
m("C75", "partial", "C75_check_partial C75_violated_leak C75_violated_free C75_violated_open", "No invalid free, and at most one block left, unless one of the named calls fails; false as it stands: every successful check leaves one block, and three failing calls end in an invalid free (witnesses proved).")
m("C76", "partial", "C76_partial C76_violated_new C76_violated_write C76_violated_options C76_violated_sequence C76_violated_free C76_violated_hash C76_violated_patches", "No invalid free and no use of an unassigned pointer unless one of the named calls fails, and a success gives everything back; failures leave at most one thing unless one of the named calls fails. False as it stands (witnesses proved).")
m("C77", "partial", "C77_package_partial C77_installed_partial C77_violated_leak C77_violated_installed C77_violated_free C77_violated_cache C77_violated_codec", "No invalid free unless one of the named calls fails, and a success with a package file gives everything back; failures leave at most the state of the compression library unless one of the named calls fails. False as it stands (witnesses proved).")
m("C78", "proved", "C78_prefix C78_made C78_head C78_apply C78_files", "Decompressors deliver a prefix of the data from a prefix of the input, and rpmlib refuses an incomplete header (parameters; met by the examples).")
m("C79", "partial", "C79_success_partial C79_prefix C79_refused C79_faultless C79_cut C79_violated", "All of it for the delta; of the sequence file only a prefix is guaranteed: C79_violated proves that a success with an empty sequence file is possible, because the results of fprintf and fclose are not looked at. close and Fclose are taken to succeed.")
m("C80", "proved", "C80_success C80_prefix C80_untouched C80_faultless", "Faults are those of the writes, of Fopen in rpm_write, and one error before the first write; close is taken to succeed.")
m("C81", "proved", "C81_rpmonly C81_standard", "For deltas between two packages; the identity rpm-only delta of a single package is C44. rpmlib's NEVR is taken to depend on name, epoch, version and release only (NevrLaw, met by the example).")
m("C82", "proved", "C82_unchanged C82_rpmonly", "C82_unchanged is about the difference of any two payloads (standard and rpm-only deltas); C82_rpmonly says it of package files and the accessor.")
m("C83", "partial", "C83_partial C83_files_partial C83_violated_skipped C83_violated_elf C83_violated_prelink", "Holds for all deltas and databases that avoid the defects named in the conditions, for all contents of the files except ELF files of another size with unusable section names, and with any number of files changed by prelink (whatever undoing prelink yields) if the files are in place, no block begins inside the target of a link and the delta states the length of the old data. False as it stands (witnesses proved). Missing besides those: failing allocations.")
m("C84", "partial", "C84_check_partial C84_sequence_partial C84_files_partial C84_sequence_files_partial C84_violated_order C84_violated_elf", "Holds for all inputs that avoid the defects named in the conditions; prelinked files are included. False as it stands (witnesses proved). Missing besides those: failing allocations (C75).")
m("C85", "proved", "C85_once C85_all C85_limit", "For files that are not prelinked (fillblock_prelink reads several blocks at a time). C85_limit: with a smaller cache blocks are read again.")
m("C86", "partial", "C86_gunzip C86_bunzip C86_unlzma C86_unzstd C86_lzip_piece C86_lzip_end C86_write_lzma C86_write_zstd C86_finish_lzma C86_finish_zstd C86_violated", "Proved for decompression with all methods and compression with lzma, xz and zstd. The full property is false of the code for compression with gzip and bzip2, where the codes are not looked at (proved).")
m("C87", "partial", "C87_partial C87_violated C87_demo", "Proved for the bytes of the package files and the delta, for all contents of the installed files. Partial because of the defects of C40 (C87_violated for a delta made by drpm_make for a package whose file list begins with a configuration file; further witnesses C40_violated_order, C40_violated_many, C40_violated_link and the block boundaries of C83): the entries of the archive must be those of the file list, in its order, and either at most 50 of the files are non-empty and no block begins inside a link target, or prelink has changed no file, the old payload has at most 5000 blocks and the copies come back to a file before using 50 others (condition Servable).")
m("C88", "proved", "C88_history C88_faults C88_files", "Without hypotheses: for every delta, package and value of the counter. For installed files the counter may matter beyond 5000 blocks (C40).")
m("C89", "partial", "C89_apply_partial C89_regular_partial C89_files_partial C89_check C89_sequence C89_nothing C89_sizes C89_violated", "Checking: proved as stated. Applying: proved for all files of the package that the delta names, with every delta, and for the regular files only if the delta names the files in the order of the list; with another order a symbolic link of the package is followed and what is behind it gets into the output (C89_violated).")
m("C90", "proved", "C90_names C90_files", "C90_names for every archive and file list within the limits of the formats; C90_files for the bytes of the package files, under the conditions of C68 on packages and sizes.")
m("C91", "proved", "C91_archive C91_newc C91_files", "C91_archive for every newc payload (the padding may be anything); C91_files: with C68, for the bytes of the package files, old payloads below 2 GiB whose padding is zero (see C21 for other padding).")
m("C92", "proved", "C92_makes_rpmonly C92_makes_standard C92_rpmonly C92_standard C92_installed C92_demo", "The format is DeltaSpec.lean. For standard deltas the data the sequence stands for are those of makeCpio (C91 says what they are); other choices of files are C93. Conditions on packages as in C48.")
m("C93", "proved", "C93_reads C93_standard C93_installed C93_made C93_demo C93_demo_installed", "For old packages as files and, where the defects of C40 do not interfere (DiskServes), for installed files. The chosen entries must have the sizes of the file list, be named once in the payload, and have well-formed digests; conditions on the new package as in C48.")
m("C94", "proved", "C94_cache C94_package C94_installed C94_apply", "For the states after any sequence of successful requests (within a request the counts only grow, so the bounds hold there too). Blocks in memory are the core and free blocks; fillblock_prelink has one more descriptor and one more buffer of its own (PlSt).")
m("C95", "proved", "C95_threads C95_ends C95_call", "The calls share only the static counter of get_block (checked by reading all of src/). The C standard leaves simultaneous use of it undefined; the model lets its value become anything. Old packages, not installed files. Calls of MD5, the codecs and rpmlib are taken to be safe in threads.")
m("C96", "proved", "C96_chain C96_order", "For package files; the conditions of each step are those of C68 (structure Updates). A wrong order means a file of another version: the file is recognised by NEVR and, for rpm-only deltas, by the MD5 in its signature header.")
m("C97", "proved", "C97_diff C97_rpmonly C97_standard", "Before compression (the codecs are parameters). The search of drpm_search.c is part of the model; the bound holds whatever it finds.")
m("C98", "partial", "C98_make_partial C98_apply_partial C98_violated_make C98_violated_part C98_violated_apply", "Violated for large outputs: a short count of write(2) is an input/output error and the rest is not written. Proved: below the limit the outcome is the same as without it; the violations are proved for every limit. For the identity delta the write is rpmlib's Fwrite, taken to be one write(2).")
m("C99", "partial", "C99_make_others C99_make C99_apply_others C99_apply_partial C99_installed_others C99_installed_partial C99_violated_make C99_violated_old C99_violated_delta C99_violated_installed", "Violated when the output of drpm_apply is a name of one of its inputs, and when the sequence file is a name of the delta. Proved: nothing else changes; drpm_make may write over its inputs; drpm_apply on separate files. Installed files as the old package: the same, as long as the output is not one of the files that the delta names (otherwise violated). Not modelled: names that change during the call; an installed file that is the output has the same contents each time it is opened.")
m("C100", "partial", "C100_still C100_verified C100_right C100_safe_partial C100_violated", "Violated if a file stops looking prelinked between fillblock_filesystem and fillblock_prelink. Proved: what a success means, for every schedule and even for blocks from anywhere; memory safety if the files change between blocks in any way, under the conditions of C83 at every moment. Not modelled: changes between two system calls of one function on the same file.")
m("C101", "proved", "C101_make C101_apply", "That outputs and inputs are separate files is a condition of the statement; otherwise see C99. A killed call is taken to leave anything in its own output files and to change no other file.")
m("C102", "partial", "C102_checks C102_package C102_installed C102_violated", "Violated by drpm_check for rpm-only deltas, which it accepts whenever the package is installed, although they cannot be applied to installed files. Proved: the rest. That a delta accepted by the full check can be applied is C87.")
m("C103", "partial", "C103_same C103_read C103_partial C103_violated C103_violated_all",
  "Proved for every delta that is accepted. For files that are refused, proved of all requests but the last; the last one may be arbitrarily large (two proved counterexamples). Requests inside rpmlib, the decompression libraries and the stream's own buffer are not counted.")
m("C104", "partial", "C104_drpm_read C104_drpm_check C104_drpm_apply C104_accepted C104_refused C104_pieces_partial C104_violated",
  "Proved for every schedule: what is accepted is what the file contains, and otherwise there is an error. That short reads do not matter is proved for all reads but those of the head (two, or seven for rpm-only deltas), which are not repeated (proved violation). The reads of rpmlib are not in the schedule, failures of lseek are left out, the decoders are functions of the bytes that arrive, and a failing read in the stream is reported as a format error.")
m("C105", "partial", "C105_make C105_partial C105_violated C105_apply C105_delta C105_undisturbed C105_rpmonly",
  "Violated by drpm_make, which opens a package twice by name and makes a delta for a mixture (proved for every update, with a demonstration). Proved: what drpm_make does is what it does for the mixture; it is one of the versions if these differ on one side of the end of the header only; drpm_apply succeeds only with an output that has the recorded digest, and what replaces an rpm-only delta has no effect. A file that is changed in place between two reads of one descriptor is not modelled for packages and deltas (for installed files it is, C100).")
m("C106", "partial", "C106_partial C106_files_partial C106_violated",
  "For every delta file whose sequence stands for the chosen files and that gives their length, with nothing assumed of copies, data, digests, signature or header. The defects of C40 are kept out by DiskServes; without it the property is violated (proved: one call writes the new package, the other fails). Rpm-only deltas and source packages, which drpm_apply refuses without a package file, are left out.")
