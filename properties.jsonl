{"id": "C01", "title": "Delta with add block reconstructs the new payload", "statement": "For any old and new payload, executing the internal copies, external copies, internal data and add data that drpm_make computes (add block enabled, the default) against the old payload reproduces the new payload byte for byte, whatever matches the search heuristics picked.", "quantifier": "all pairs of payloads, the new one of at least 16 bytes, in which no single matched region reaches 2 GiB (so all pairs in which one payload is smaller than 2 GiB); larger regions are C06", "why_tests_cant": "The space of payload pairs is unbounded and the match-extension/overlap-split arithmetic depends on the data; a test only covers the pairs it contains.", "anchors": ["src/drpm_diff.c:make_diff", "src/drpm_diff.c:create_diff_copies", "src/drpm_diff.c:create_int_data_array", "src/drpm.c:drpm_apply (reconstruction loop)"]}
{"id": "C02", "title": "Delta without add block reconstructs the new payload", "statement": "With drpm_make_options_forbid_addblk, every external copy is an exact copy and the delta still reproduces the new payload byte for byte.", "quantifier": "the same pairs of payloads as C01", "why_tests_cant": "Same unbounded space as C01, on the other branch of every extension decision.", "anchors": ["src/drpm_diff.c:make_diff", "src/drpm_diff.c:create_diff_copies", "src/drpm.c:drpm_apply"]}
{"id": "C03", "title": "Delta generation terminates and stays in bounds", "statement": "drpm_make's diff of any two payloads terminates after a number of search steps bounded by the payload sizes, and never reads outside either payload or its search table.", "quantifier": "all old payloads and all new payloads (the code violates it for new payloads of 1..15 bytes)", "why_tests_cant": "Non-termination and stray reads depend on hash collisions and on data-dependent jumps backwards in the scan position; no finite test suite excludes them.", "anchors": ["src/drpm_search.c:hash_search", "src/drpm_search.c:hash_create", "src/drpm_search.c:match_len", "src/drpm_diff.c:make_diff"]}
{"id": "C04", "title": "Matches reported by the search are real", "statement": "Every match the search hands to the diff lies inside both payloads, is at least 32 bytes long and its bytes are equal in both payloads; otherwise the search reports end-of-input.", "quantifier": "all old payloads, all new payloads of at least 16 bytes (the length of a hash window), all start positions and previous alignments", "why_tests_cant": "Depends on hash collisions, second-slot probing and backwards extension over arbitrary data.", "anchors": ["src/drpm_search.c:hash_search", "src/drpm_search.c:hash_create"]}
{"id": "C05", "title": "Rolling hash agrees with the hash of the window", "statement": "Sliding the search hash by one byte gives exactly the hash that a fresh computation over the new 16-byte window gives, so no indexed block can be missed because of drift.", "quantifier": "all 17-byte windows (hence all positions of all inputs)", "why_tests_cant": "2^136 windows.", "anchors": ["src/drpm_search.c:buzhash", "src/drpm_search.c:hash_search"]}
{"id": "C06", "title": "Copy lists describe the diff exactly, including far seeks", "statement": "Walking the emitted external copies (signed relative seeks, lengths) visits exactly the old-payload regions chosen by the diff, in order; seeks of 2^31 bytes or more are split into steps that add up to the distance; internal copies carry exactly the number of external copies that precede them.", "quantifier": "all lists of diff regions with lengths below 2^31 (full statement: all lengths; the code is wrong for a region of 2^31 bytes or more reached by a non-zero seek)", "why_tests_cant": "Needs multi-gigabyte inputs to exercise; no test has them.", "anchors": ["src/drpm_diff.c:create_diff_copies", "src/drpm.c:drpm_apply"]}
{"id": "C07", "title": "Delta file round trip", "statement": "Writing a delta and reading the file back gives the same version, type, source and target NEVR, sequence, target MD5, size, compression, header length, offset adjustments, lead and signature, copy lists, external data length, add data and internal data.", "quantifier": "all delta contents that drpm_make can produce, formats 1 to 3, standard and rpm-only, every delta compression whose codec is lossless", "why_tests_cant": "The product of all field values, list lengths and versions is infinite.", "anchors": ["src/drpm_write.c:write_deltarpm", "src/drpm_read.c:read_deltarpm", "src/drpm_read.c:readdelta_rest", "src/drpm_read.c:readdelta_rpmonly"]}
{"id": "C08", "title": "Signed offsets survive the sign-magnitude file representation", "statement": "Every seek offset and every offset adjustment other than -2^31 is read back as the number that was written; -2^31 is not representable (it reads back as 0) and drpm_make never emits it.", "quantifier": "all 32-bit values", "why_tests_cant": "2^32 values, and the emission part ranges over all inputs.", "anchors": ["src/drpm_write.c:write_deltarpm", "src/drpm_read.c:readdelta_rest", "src/drpm_private.h:TWOS_COMPLEMENT"]}
{"id": "C09", "title": "An accepted delta never copies outside its data", "statement": "If drpm_read/drpm_apply accept a delta, then the internal copies together never exceed the internal data and every external copy lies inside the declared external data.", "quantifier": "all byte sequences a delta file can contain (external part: declared length below 2^63)", "why_tests_cant": "Attacker-controlled input; the space of files is infinite.", "anchors": ["src/drpm_read.c:readdelta_rest", "src/drpm.c:drpm_apply"]}
{"id": "C10", "title": "Reading a delta is memory safe", "statement": "Reading any file as a delta never writes or reads outside an allocated buffer.", "quantifier": "all byte sequences (the code violates it: element counts of 2^29 and more wrap the allocation size)", "why_tests_cant": "Attacker-controlled input; the failing inputs are rare and the rest is an infinite space.", "anchors": ["src/drpm_read.c:readdelta_rest", "src/drpm_read.c:readdelta_rpmonly", "src/drpm_read.c:deltarpm_to_drpm"]}
{"id": "C11", "title": "Only delta formats 1 to 3 are accepted", "statement": "drpm_read succeeds only on files whose embedded version is 1, 2 or 3, and rpm-only deltas only on version 3.", "quantifier": "all byte sequences (the code violates it: any version byte is accepted)", "why_tests_cant": "Ranges over all files.", "anchors": ["src/drpm_read.c:readdelta_rest", "src/drpm_read.c:readdelta_rpmonly"]}
{"id": "C12", "title": "Target compression code round trip", "statement": "The compression type and level of the target stored in the delta decode to the type and level that were encoded, and encoding fails exactly for the types that have no code.", "quantifier": "all 16-bit types, all levels below 256 (the code has eight bits for the level) / all 32-bit codes", "why_tests_cant": "2^32 pairs; needs both directions and the failure set.", "anchors": ["src/drpm_deltarpm.c:deltarpm_encode_comp", "src/drpm_deltarpm.c:deltarpm_decode_comp"]}
{"id": "C13", "title": "Integers are stored big-endian, losslessly", "statement": "Reading back a written 32-bit or 64-bit integer gives the same number, and the byte order is most significant first.", "quantifier": "all 2^32 and 2^64 integers, all byte strings", "why_tests_cant": "Too many values.", "anchors": ["src/drpm_utils.c:create_be32", "src/drpm_utils.c:parse_be32", "src/drpm_utils.c:create_be64", "src/drpm_utils.c:parse_be64", "src/drpm_utils.c:parse_be16"]}
{"id": "C14", "title": "Hexadecimal strings round trip", "statement": "Hex strings handed out by the API (sequence, MD5, lead and signature, compression parameters) have two digits per byte and parse back to the original bytes; parsing accepts exactly strings of hex digits and ignores one odd trailing character.", "quantifier": "all byte strings / all character strings", "why_tests_cant": "Infinite space.", "anchors": ["src/drpm_utils.c:dump_hex", "src/drpm_utils.c:parse_hex", "src/drpm_utils.c:parse_hexnum"]}
{"id": "C15", "title": "File order sequence round trip", "statement": "The compressed file-order sequence produced at make time expands at check/apply time to exactly the list of file indices that was encoded, for any order, with gaps and repetitions.", "quantifier": "all lists of file indices below the file count with at most as many elements as there are files (the archive has each file once), for any number of files", "why_tests_cant": "Infinite space of index lists; nibble packing and run/gap/jump encoding interact.", "anchors": ["src/drpm_make.c:seq_add", "src/drpm_make.c:seq_append", "src/drpm_make.c:seq_final", "src/drpm_apply.c:expand_sequence"]}
{"id": "C16", "title": "Encoding the file order stays inside its buffer", "statement": "While the sequence is built, every nibble is written inside the currently allocated buffer.", "quantifier": "all lists of file indices", "why_tests_cant": "Depends on the whole history of appended values.", "anchors": ["src/drpm_make.c:seq_append"]}
{"id": "C17", "title": "Expanding a file order is memory safe", "statement": "Expanding any sequence against any file list never writes outside the position table, reads outside the file list, or shifts by the operand width or more.", "quantifier": "all sequence byte strings, all file counts (the code violates it three ways)", "why_tests_cant": "Attacker-controlled input.", "anchors": ["src/drpm_apply.c:expand_sequence"]}
{"id": "C18", "title": "The sequence checksum computed at make time verifies at apply time", "statement": "For the same file list, the MD5 input that drpm_make hashes into the sequence equals the MD5 input that drpm_apply, drpm_check and drpm_check_sequence hash, so an unchanged package is never reported as mismatching.", "quantifier": "all archives whose entries have different names, all file lists within the limits of the CPIO fields (names below 65533 bytes, sizes below 4 GiB - 3) and all encodings of metadata (names, modes, sizes, device numbers, link targets, digests)", "why_tests_cant": "Two independently written serialisations must agree on every input.", "anchors": ["src/drpm_make.c:parse_cpio_from_rpm_filedata", "src/drpm_apply.c:expand_sequence"]}
{"id": "C19", "title": "Sequence ID text round trip", "statement": "The line written to the sequence file is split by drpm_check_sequence into the same source NEVR and the same sequence bytes, with or without the trailing newline, even if the NEVR contains dashes.", "quantifier": "all NEVR strings, all sequences of at least 16 bytes", "why_tests_cant": "Infinite space of strings.", "anchors": ["src/drpm_write.c:write_seqfile", "src/drpm.c:drpm_check_sequence"]}
{"id": "C20", "title": "CPIO entry headers round trip", "statement": "A CPIO header written by the library is 110 characters long and reads back with the same field values; an accepted header has the right magic and only hex digits.", "quantifier": "all field values", "why_tests_cant": "12 numeric fields.", "anchors": ["src/drpm_make.c:cpio_header_write", "src/drpm_make.c:cpio_header_read"]}
{"id": "C21", "title": "Old payload seen at apply time equals old payload seen at make time (standard delta, from RPM)", "statement": "For a standard delta, the byte stream that drpm_apply reconstructs from the old RPM and the expanded sequence is the very altered archive that drpm_make diffed against, block by block.", "quantifier": "all archives that drpm_make accepts and that are laid out as rpmbuild does (different names, zero padding, no data in entries other than regular files and links), all file lists within the limits of the CPIO fields (without these conditions the code violates it)", "why_tests_cant": "Two independently written archive transformations must agree on every archive and on every block boundary.", "anchors": ["src/drpm_make.c:parse_cpio_from_rpm_filedata", "src/drpm_block.c:fillblock_rpm_standard", "src/drpm_block.c:fill_cpio_header", "src/drpm_apply.c:expand_sequence"]}
{"id": "C22", "title": "Old payload seen at apply time equals header plus archive (rpm-only delta)", "statement": "For an rpm-only delta the external data served block by block is the old header followed by the old archive, zero-padded in the last block.", "quantifier": "all headers and archives, all block positions", "why_tests_cant": "Block boundaries fall anywhere in header and archive.", "anchors": ["src/drpm_block.c:fillblock_rpm_rpmonly"]}
{"id": "C23", "title": "The block cache always returns the true bytes", "statement": "Whatever the sequence of external copies, eviction, paging to the temporary file and reuse of page slots, the bytes delivered for an external copy are the bytes of the external data at that offset.", "quantifier": "all external data, all accepted copy lists, all cache limits and all values of the process-wide cleanup counter", "why_tests_cant": "State space of the cache and the history of evictions is unbounded; real limits (5000 blocks) are never reached in tests.", "anchors": ["src/drpm_block.c:blocks_next", "src/drpm_block.c:get_block", "src/drpm_block.c:push_block", "src/drpm_block.c:write_page_block", "src/drpm_block.c:read_page_block"]}
{"id": "C24", "title": "The cache never loses a block that is still needed", "statement": "A block read sequentially from the old RPM is never requested again after it was dropped, so applying never fails with an internal error because of caching.", "quantifier": "all accepted copy lists, all cache limits", "why_tests_cant": "Depends on the complete future of the copy list.", "anchors": ["src/drpm_block.c:blocks_create", "src/drpm_block.c:get_block", "src/drpm_block.c:push_block"]}
{"id": "C25", "title": "Block bookkeeping is in bounds for accepted deltas", "statement": "Setting up the block tables for an accepted delta indexes only inside the tables, and declares each block needed until the last copy that touches it.", "quantifier": "all copy lists accepted by the reader, all external lengths below 2^63", "why_tests_cant": "Relies on a relation between two distant pieces of code over all inputs.", "anchors": ["src/drpm_block.c:blocks_create", "src/drpm_read.c:readdelta_rest"]}
{"id": "C26", "title": "A successful apply wrote exactly the bytes whose MD5 the delta records", "statement": "If drpm_apply returns success and the delta carries a target MD5, the MD5 of the complete output file equals it, and it is the MD5 that drpm_read reports for the delta: so a delta made for a new package file, applied to whatever old package or installed files, yields that file (or one of the same MD5) or an error; if the delta carries none and the target signature has an MD5, the MD5 of everything after the signature equals that one.", "quantifier": "all deltas, all old packages, all compressors", "why_tests_cant": "Security property over all inputs and all failure paths.", "anchors": ["src/drpm.c:drpm_apply", "src/drpm_write.c:compstrm_wrapper_write", "src/drpm_write.c:compstrm_wrapper_finish", "src/drpm_compstrm.c:compstrm_write", "src/drpm_compstrm.c:compstrm_finish"]}
{"id": "C27", "title": "Header prefix stays uncompressed for any chunking", "statement": "For rpm-only deltas the first header-length bytes of the reconstructed stream are written verbatim and everything after them goes through the compressor, independently of how the stream is cut into pieces.", "quantifier": "all streams, all partitions into write calls, all header lengths", "why_tests_cant": "All partitions of all streams.", "anchors": ["src/drpm_write.c:compstrm_wrapper_write", "src/drpm_write.c:compstrm_wrapper_finish"]}
{"id": "C28", "title": "Compression stream: file and memory agree", "statement": "After finishing, the bytes written to the file descriptor are the bytes returned in memory, for every sequence of writes; without compression they are the concatenation of the inputs.", "quantifier": "all sequences of writes, all compressors", "why_tests_cant": "Unbounded histories.", "anchors": ["src/drpm_compstrm.c:compstrm_write", "src/drpm_compstrm.c:compstrm_finish", "src/drpm_compstrm.c:writechunk"]}
{"id": "C29", "title": "Decompression stream: reads are independent of chunking", "statement": "Reading a sequence of lengths from a delta or archive returns consecutive slices of the decompressed data regardless of how the input arrives in chunks; a read beyond the end fails and nothing is skipped.", "quantifier": "all data, all chunkings, all sequences of read lengths", "why_tests_cant": "Unbounded histories.", "anchors": ["src/drpm_decompstrm.c:decompstrm_read", "src/drpm_decompstrm.c:readchunk"]}
{"id": "C30", "title": "Corrupt payloads are detected while reading a package", "statement": "Reading the payload of a package until its end either returns the whole payload or fails.", "quantifier": "all compressed payloads (the code violates it: a decoder data error is treated as end of data)", "why_tests_cant": "Corruption can be anywhere.", "anchors": ["src/drpm_decompstrm.c:decompstrm_read_until_eof", "src/drpm_decompstrm.c:readchunk_gzip"]}
{"id": "C31", "title": "Compression of a delta is detected unambiguously", "statement": "The compression reported for a delta stream is determined by its first eight bytes, at most one method matches, and an uncompressed delta is always reported as uncompressed.", "quantifier": "all streams", "why_tests_cant": "Ranges over all 2^64 prefixes.", "anchors": ["src/drpm_decompstrm.c:decompstrm_init"]}
{"id": "C32", "title": "An uncompressed add block can be applied", "statement": "A delta made with an uncompressed add block can be applied again.", "quantifier": "all add blocks (the code violates it for add blocks shorter than 8 bytes and for those that begin with a compression magic)", "why_tests_cant": "Depends on data.", "anchors": ["src/drpm_decompstrm.c:decompstrm_init", "src/drpm.c:drpm_apply", "src/drpm_options.c:drpm_make_options_set_addblk_comp"]}
{"id": "C33", "title": "Option setters validate and never half-update", "statement": "After any sequence of option calls the options are valid (version 1..3, known compression, level 0..9); a call that reports an error leaves the options unchanged.", "quantifier": "all sequences of option calls with all arguments", "why_tests_cant": "Unbounded histories.", "anchors": ["src/drpm_options.c"]}
{"id": "C34", "title": "Option strings never overflow their buffers", "statement": "Setting the sequence file name or patch names any number of times never writes beyond the allocated buffer and the stored string is the last one set.", "quantifier": "all sequences of set/unset/copy/reset calls with all strings", "why_tests_cant": "The buffer is reused when the new string is not longer, so it depends on history.", "anchors": ["src/drpm_options.c:drpm_make_options_set_seqfile", "src/drpm_options.c:drpm_make_options_add_patches", "src/drpm_options.c:drpm_make_options_copy", "src/drpm_options.c:drpm_make_options_defaults"]}
{"id": "C35", "title": "Default options mean the same as no options; copies are faithful", "statement": "Passing NULL options behaves like freshly initialised options, and copying options gives options with the same settings.", "quantifier": "all option values reachable by calls", "why_tests_cant": "All histories.", "anchors": ["src/drpm_options.c:drpm_make_options_copy", "src/drpm_options.c:drpm_make_options_defaults", "src/drpm.c:drpm_make"]}
{"id": "C36", "title": "Accessors return the value of the requested tag", "statement": "Each accessor returns, for each tag it supports, the value read from the delta, converts without loss, and reports bad arguments for every other tag without touching the result.", "quantifier": "all deltas, all integer tags", "why_tests_cant": "Infinite tags and values.", "anchors": ["src/drpm.c:drpm_get_uint", "src/drpm.c:drpm_get_ulong", "src/drpm.c:drpm_get_ullong", "src/drpm.c:drpm_get_string", "src/drpm.c:drpm_get_ulong_array"]}
{"id": "C37", "title": "NEVR strings are split correctly", "statement": "A name-[epoch:]version-release string is split into exactly its parts when the database is consulted.", "quantifier": "all names without colon (dashes allowed), all epochs, versions, releases without dash and colon", "why_tests_cant": "Infinite strings.", "anchors": ["src/drpm_rpm.c:rpm_read_header"]}
{"id": "C38", "title": "File checks mean what they say", "statement": "A full check passes only if the first recorded-size bytes of the installed file have the recorded digest; a size check passes without prelink only if the size matches; a file that is too short fails the full check unless digests collide.", "quantifier": "all file contents, sizes, digests and read chunkings", "why_tests_cant": "All contents.", "anchors": ["src/drpm_apply.c:check_full", "src/drpm_apply.c:check_filesize"]}
{"id": "C39", "title": "Prelink detection is memory safe and faithful", "statement": "Deciding whether a file is prelinked reads only inside the buffers and frees only what it allocated; it answers yes exactly for ELF files with a .gnu.prelink_undo section.", "quantifier": "all file contents (the code violates it: it frees a pointer into the middle of a buffer)", "why_tests_cant": "Attacker-controlled input.", "anchors": ["src/drpm_apply.c:is_prelinked", "src/drpm_apply.c:elf16", "src/drpm_apply.c:elf32", "src/drpm_apply.c:elf64"]}
{"id": "C40", "title": "Files are read from the right place when applying from the filesystem", "statement": "When a standard delta is applied from installed files, the content of each archive entry comes from the file the entry names.", "quantifier": "all file lists, all sequences, all access histories (the code violates it whenever the sequence is not the identity, and after more than 50 files)", "why_tests_cant": "Depends on file order and on the history of the open-file cache.", "anchors": ["src/drpm_block.c:open_new_file", "src/drpm_block.c:get_open_file", "src/drpm_block.c:fillblock_filesystem"]}
{"id": "C41", "title": "Archive buffer growth never overflows", "statement": "Building the altered archive never writes outside its buffer, for any sequence of appended pieces.", "quantifier": "all sequences of appended pieces", "why_tests_cant": "Buffer capacity is implied by the current length only; needs an invariant.", "anchors": ["src/drpm_make.c:cpio_extend", "src/drpm_private.h:PADDING"]}
{"id": "C42", "title": "Growing arrays never overflow", "statement": "Arrays that grow in steps of 16 or 32 elements always have room for the element about to be stored.", "quantifier": "all numbers of appended elements", "why_tests_cant": "Unbounded counts.", "anchors": ["src/drpm_utils.c:resize", "src/drpm_diff.c:create_diff_copies", "src/drpm_diff.c:make_diff"]}
{"id": "C43", "title": "Offset adjustments describe the altered archive", "statement": "Summing up the offset adjustments gives, at each retained entry, the position in the altered archive and its displacement from the original archive.", "quantifier": "all archives with gaps below 2^32 (full: all; the code truncates larger gaps)", "why_tests_cant": "Needs multi-gigabyte archives.", "anchors": ["src/drpm_make.c:parse_cpio_from_rpm_filedata"]}
{"id": "C44", "title": "Identity rpm-only deltas can be applied", "statement": "A delta made from a single package in rpm-only mode, applied to the same package, reproduces it.", "quantifier": "all packages (the code violates it for every package with a compressed payload)", "why_tests_cant": "Ranges over all packages.", "anchors": ["src/drpm_make.c:fill_nodiff_deltarpm", "src/drpm.c:drpm_apply", "src/drpm_rpm.c:rpm_write"]}
{"id": "C45", "title": "Payload format offset lookup stays inside the header", "statement": "The lookup of the payload format tag only reads inside the exported header and returns the offset of the first index entry with that tag.", "quantifier": "all header blobs", "why_tests_cant": "All blobs.", "anchors": ["src/drpm_rpm.c:rpm_find_payload_format_offset"]}
{"id": "C46", "title": "Archive reads stay inside the archive", "statement": "Reading chunks from an archive returns consecutive slices and fails, without moving, when the archive is exhausted.", "quantifier": "all archives, all sequences of chunk sizes below 2^63", "why_tests_cant": "Unbounded histories.", "anchors": ["src/drpm_rpm.c:rpm_archive_read_chunk", "src/drpm_rpm.c:rpm_archive_rewind"]}
{"id": "C47", "title": "Patched-package options work", "statement": "drpm_make with patch information reads the two lists and excludes unpatched files.", "quantifier": "all patch lists (the code violates it: it reads uninitialised memory for every list)", "why_tests_cant": "All lists.", "anchors": ["src/drpm_make.c:patches_read", "src/drpm_make.c:read_rpmlist", "src/drpm_make.c:is_unpatched"]}
{"id": "C48", "title": "Make followed by apply reproduces the package", "statement": "For any two packages, drpm_apply of the delta made by drpm_make to the old package succeeds and writes a file identical to the new package, provided the compressor reproduces the new payload.", "quantifier": "all package files within the size limits of the formats whose archives are laid out as rpmbuild does, both delta types, all delta versions, all option combinations with add block compressed or absent", "why_tests_cant": "End-to-end over all packages.", "anchors": ["src/drpm.c:drpm_make", "src/drpm.c:drpm_apply"]}
{"id": "C49", "title": "A failing apply leaves the output path alone", "statement": "A failing drpm_apply leaves an existing file at the output path untouched.", "quantifier": "all failing calls (the code violates it: the output is truncated first)", "why_tests_cant": "All failure points.", "anchors": ["src/drpm.c:drpm_apply"]}
{"id": "C50", "title": "Error descriptions are total and distinct", "statement": "drpm_strerror returns a string for every integer, different strings for different error codes, and the undefined text exactly for non-codes.", "quantifier": "all integers", "why_tests_cant": "Ranges over all ints.", "anchors": ["src/drpm.c:drpm_strerror"]}
{"id": "C51", "title": "Copy counts of an accepted delta match its lists", "statement": "If a delta is accepted, the number of internal and external copies it declares is the number of copies that were read, so that applying never runs past the lists.", "quantifier": "all files (the code violates it for counts of 2^31 and more)", "why_tests_cant": "Ranges over all byte strings; the failing counts need crafted files.", "anchors": ["src/drpm_read.c:readdelta_rest", "src/drpm.c:drpm_apply"]}
{"id": "C54", "title": "Opening a delta stays inside its buffers", "statement": "Whatever file drpm_read is given, turning the delta it read into the form the accessors use never writes outside the memory obtained for it.", "quantifier": "all delta files (the code violates it for sequences of 2 GiB and more)", "why_tests_cant": "Ranges over all byte strings; the failing sizes cannot be built in a unit test.", "anchors": ["src/drpm_read.c:deltarpm_to_drpm", "src/drpm.c:drpm_read", "src/drpm_utils.c:dump_hex"]}
{"id": "C55", "title": "A successful check means the installed package matches", "statement": "If drpm_check succeeds, the package named in the delta is installed, and for a standard delta the metadata of its files have the MD5 recorded in the delta's sequence and every regular non-empty file of the sequence passed the check asked for (digest or size).", "quantifier": "all deltas, all package databases, all file systems, both check modes", "why_tests_cant": "Ranges over all deltas and all states of the system.", "anchors": ["src/drpm.c:drpm_check", "src/drpm_apply.c:expand_sequence", "src/drpm_apply.c:check_full", "src/drpm_apply.c:check_filesize"]}
{"id": "C56", "title": "An intact installation passes every check", "statement": "Wherever the old package is installed with its files unchanged, drpm_check accepts the delta made from it and drpm_check_sequence accepts its sequence ID, in every check mode.", "quantifier": "all packages, all systems where their files are intact, all check modes", "why_tests_cant": "Needs the sequence made by drpm_make and its expansion to agree for every package.", "anchors": ["src/drpm.c:drpm_check", "src/drpm.c:drpm_check_sequence", "src/drpm_make.c:parse_cpio_from_rpm_filedata", "src/drpm_apply.c:expand_sequence"]}
{"id": "C57", "title": "Memory for blocks stays bounded", "statement": "However large the old package is and whatever a delta copies from it, applying keeps at most 5000 blocks of 8 KiB in memory; the rest is paged to a file.", "quantifier": "all old packages, all histories of block accesses", "why_tests_cant": "Ranges over unbounded histories of the cache.", "anchors": ["src/drpm_block.c:grab_block", "src/drpm_block.c:get_block", "src/drpm_block.c:blocks_next"]}
{"id": "C58", "title": "File digests are parsed inside their buffer", "statement": "Whatever digest string the header of a package gives for a file, parsing it writes only inside the buffer for the digest.", "quantifier": "all digest strings (the code violates it for strings of more than 65 hexadecimal digits)", "why_tests_cant": "Ranges over all headers; the digest is attacker-controlled.", "anchors": ["src/drpm_make.c:parse_cpio_from_rpm_filedata", "src/drpm_apply.c:expand_sequence", "src/drpm_utils.c:parse_hex"]}
{"id": "C59", "title": "A valid compressed payload is read completely", "statement": "Whatever compression method a payload, an add block or a delta uses, and however the operating system cuts it into pieces, reading it gives all of the data, byte for byte and nothing else; the size and the MD5 of the compressed data reported afterwards are those of all of it.", "quantifier": "all valid compressed streams of all methods, all ways of cutting them into pieces, all sequences of reads, every library that keeps the promises of its manual (the code violates it for zstd)", "why_tests_cant": "Ranges over all streams and all ways the library may split its work over calls; a test sees one library version.", "anchors": ["src/drpm_decompstrm.c:readchunk_gzip", "src/drpm_decompstrm.c:readchunk_bzip2", "src/drpm_decompstrm.c:readchunk_lzma", "src/drpm_decompstrm.c:readchunk_lzip", "src/drpm_decompstrm.c:readchunk_zstd", "src/drpm_decompstrm.c:decompstrm_read_until_eof"]}
{"id": "C60", "title": "Compressing loses nothing", "statement": "For every method, if data is written to a compression stream in any pieces and the stream is finished, every call succeeds and what is handed out and appended to the file is one complete compressed stream of all the data; decompressing the file gives the data back.", "quantifier": "all data, all ways of cutting it into writes, every library that keeps the promises of its manual", "why_tests_cant": "Ranges over all data and all ways the library may split its work over calls.", "anchors": ["src/drpm_compstrm.c:compstrm_write", "src/drpm_compstrm.c:compstrm_finish", "src/drpm_compstrm.c:writechunk_zstd", "src/drpm_compstrm.c:finish_gzip"]}
{"id": "C61", "title": "Compression levels are usable or refused", "statement": "Whatever compression method and level a package or a delta asks for, making and applying either use it or fail with an error code.", "quantifier": "all methods, all levels (the code violates it for levels 10 to 99 of gzip, bzip2 and lzma: the library is used although it was not initialised)", "why_tests_cant": "Ranges over all levels in attacker-controlled files; the effect is undefined behaviour.", "anchors": ["src/drpm_compstrm.c:compstrm_init", "src/drpm_compstrm.c:init_gzip", "src/drpm_compstrm.c:init_bzip2", "src/drpm_compstrm.c:init_lzma"]}
{"id": "C62", "title": "Reading a package file finds its parts", "statement": "For every well-formed package file, opening it yields its lead, signature, header and (if asked) its payload as it is or decompressed with the method it begins with; the sizes that are computed from it are those of the file, and the digests that are asked for are those of header and payload or of the whole file.", "quantifier": "all package files (any headers, any padding, any payload), all modes of reading, every decompression library", "why_tests_cant": "Ranges over all files and over how the payload is cut into chunks while digests are updated.", "anchors": ["src/drpm_rpm.c:rpm_read", "src/drpm_rpm.c:rpm_read_archive", "src/drpm_rpm.c:rpm_size_full", "src/drpm_rpm.c:rpm_fetch_lead_and_signature"]}
{"id": "C63", "title": "Anything that is not a package is refused", "statement": "Opening any sequence of bytes as a package either succeeds or fails with an error code; bytes that do not begin with a lead, a signature and a header are a format error; a package whose name cannot be had from its header is used neither for making nor for applying.", "quantifier": "all byte sequences, all modes of reading", "why_tests_cant": "Ranges over all inputs, including hostile ones.", "anchors": ["src/drpm_rpm.c:rpm_read", "src/drpm_rpm.c:rpm_read_archive"]}
{"id": "C64", "title": "Packages survive writing and reading", "statement": "A package that is written to a file and read back is the same package, and the digest computed while writing is the digest computed while reading.", "quantifier": "all packages whose headers can be stored, with digests of the file or of header and payload", "why_tests_cant": "Ranges over all packages.", "anchors": ["src/drpm_rpm.c:rpm_write", "src/drpm_rpm.c:rpm_read"]}
{"id": "C65", "title": "Payload method, format, level and digest algorithm are those of the header", "statement": "The compression method, payload format, compression level and digest algorithm a delta is made with are those named in the header of the package; names and numbers the program does not know are refused.", "quantifier": "all headers, all values of the tags (violated for the level: \"-5\" becomes 65531, anything that is not a number becomes 0)", "why_tests_cant": "Ranges over all strings in attacker-controlled headers.", "anchors": ["src/drpm_rpm.c:rpm_get_comp", "src/drpm_rpm.c:rpm_get_comp_level", "src/drpm_rpm.c:rpm_get_digest_algo", "src/drpm_rpm.c:rpm_get_payload_format"]}
{"id": "C66", "title": "The file list is that of the header", "statement": "For every header with a file list there is exactly one record per file, in the order of the header, with the name, mode, size, digest, link target, device and flags the header has for it; lists of different lengths are refused.", "quantifier": "all headers, file lists of any length, with and without colours", "why_tests_cant": "Ranges over file lists of any length.", "anchors": ["src/drpm_rpm.c:rpm_get_file_info"]}
{"id": "C67", "title": "A standard delta is a package", "statement": "The delta made from two packages begins like a package file: with the lead of the new package, its header with only the payload format changed, and a signature with the size and MD5 of what follows; changing the payload format back gives exactly the header of the new package.", "quantifier": "all packages, all delta contents, every header library that keeps the stated laws", "why_tests_cant": "Ranges over all headers and all delta contents.", "anchors": ["src/drpm_rpm.c:rpm_patch_payload_format", "src/drpm_rpm.c:unload_region", "src/drpm_rpm.c:rpm_signature_reload", "src/drpm_write.c:write_deltarpm", "src/drpm_read.c:readdelta_standard"]}
{"id": "C68", "title": "Deltas turn package files into package files", "statement": "For every two package files, the delta that drpm_make writes for them, applied by drpm_apply to the old file (or to the installed files of the old package), gives the new file, byte for byte.", "quantifier": "all pairs of package files within the limits of the format, both kinds of delta, all versions and options, every rpmlib and compression library that keeps the stated laws", "why_tests_cant": "It composes every part of the library over all inputs.", "anchors": ["src/drpm.c:drpm_make", "src/drpm.c:drpm_apply", "src/drpm_rpm.c:rpm_read"]}
{"id": "C69", "title": "What drpm_make refuses", "statement": "drpm_make without packages, or for an rpm-only delta in a version before 3, is DRPM_ERR_ARGS; a package that cannot be read is reported with the error of reading it; a target whose payload is not a CPIO archive is DRPM_ERR_FORMAT. Conversely, whenever drpm_make succeeds, all of this is in order.", "quantifier": "all packages (readable or not), all options", "why_tests_cant": "Ranges over all combinations of arguments and packages.", "anchors": ["src/drpm.c:drpm_make"]}
{"id": "C70", "title": "A delta is applied to its source package only", "statement": "drpm_apply refuses every old package that does not have the name, epoch, version and release named in the delta, and for rpm-only deltas every one with another signature MD5 (or none); without an old package it refuses rpm-only deltas, deltas of source packages and packages that are not installed. Conversely, whenever it succeeds, the old package is the right one.", "quantifier": "all delta files, all packages, all databases of installed packages", "why_tests_cant": "Ranges over all deltas and packages.", "anchors": ["src/drpm.c:drpm_apply", "src/drpm_rpm.c:rpm_read_header"]}
{"id": "C71", "title": "Applying is memory-safe for every delta and package", "statement": "drpm_apply with a package file never reads or writes outside its buffers, never uses memory it did not initialise and never hangs, whatever the delta file contains (truncated, inconsistent, hostile) and whatever the old package contains; malformed input is reported as an error.", "quantifier": "all delta files, all old packages, all histories of earlier calls", "why_tests_cant": "Memory safety is a statement about every input, including hostile ones; a test sees only the inputs it runs, and over-reads often go unnoticed.", "anchors": ["src/drpm.c:drpm_apply", "src/drpm_apply.c:expand_sequence", "src/drpm_block.c:blocks_next", "src/drpm_block.c:fillblock_rpm_standard", "src/drpm_block.c:fillblock_rpm_rpmonly", "src/drpm_rpm.c:rpm_replace_lead_and_signature", "src/drpm_write.c:compstrm_wrapper_finish"]}
{"id": "C53", "title": "Making is memory-safe for every pair of packages", "statement": "drpm_make never reads or writes outside its buffers and never hangs, whatever the payload archives, file lists and headers of the two packages contain (truncated, inconsistent, hostile) and whichever options are chosen; malformed input is reported as an error.", "quantifier": "all old and new packages, all options, one package or two", "why_tests_cant": "Memory safety is a statement about every input, including hostile ones; a test sees only the inputs it runs, and over-reads often go unnoticed.", "anchors": ["src/drpm.c:drpm_make", "src/drpm_make.c:parse_cpio_from_rpm_filedata", "src/drpm_make.c:seq_add", "src/drpm_make.c:cpio_extend", "src/drpm_diff.c:make_diff", "src/drpm_rpm.c:rpm_find_payload_format_offset", "src/drpm_write.c:write_deltarpm"]}
{"id": "C72", "title": "Reading and destroying gives everything back", "statement": "drpm_read frees nothing that it does not hold, and when it succeeds, exactly the memory of the returned handle stays allocated; drpm_destroy on that handle later frees exactly that memory. No block, library object or file descriptor remains.", "quantifier": "all delta files, all patterns of failing allocations and system calls, all states of the heap", "why_tests_cant": "A leak or double free on a failure path needs the failure at exactly that call; tests cannot enumerate which calls fail on which input.", "anchors": ["src/drpm.c:drpm_read", "src/drpm.c:drpm_destroy", "src/drpm_read.c:read_deltarpm", "src/drpm_read.c:deltarpm_to_drpm", "src/drpm_read.c:drpm_free", "src/drpm_deltarpm.c:free_deltarpm"]}
{"id": "C73", "title": "A failed read leaves nothing behind", "statement": "When drpm_read fails, for whatever reason, nothing it allocated or opened stays allocated or open.", "quantifier": "all delta files, all patterns of failing allocations and system calls", "why_tests_cant": "A leak on a failure path needs the failure at exactly that call; tests cannot enumerate which calls fail on which input.", "anchors": ["src/drpm.c:drpm_read", "src/drpm_read.c:readdelta_standard", "src/drpm_decompstrm.c:readchunk_zstd"]}
{"id": "C74", "title": "Checking a sequence against a package file leaves nothing behind", "statement": "drpm_check_sequence with a package file, whether it accepts, refuses or fails, frees nothing that it does not hold, and leaves nothing allocated or open.", "quantifier": "all sequences, all package files, all patterns of failing allocations and system calls", "why_tests_cant": "A leak or double free on a failure path needs the failure at exactly that call; tests cannot enumerate which calls fail on which input.", "anchors": ["src/drpm.c:drpm_check_sequence", "src/drpm_apply.c:expand_sequence", "src/drpm_rpm.c:rpm_read", "src/drpm_rpm.c:rpm_get_file_info"]}
{"id": "C75", "title": "Checking against installed packages leaves nothing behind", "statement": "drpm_check, and drpm_check_sequence without a package file, free nothing that they do not hold, and leave nothing allocated or open.", "quantifier": "all deltas and sequences, all databases and installed files, all check modes, all patterns of failing allocations and system calls", "why_tests_cant": "A leak or double free on a failure path needs the failure at exactly that call; tests cannot enumerate which calls fail on which input.", "anchors": ["src/drpm.c:drpm_check", "src/drpm.c:drpm_check_sequence", "src/drpm_rpm.c:rpm_read_header", "src/drpm_apply.c:is_prelinked", "src/drpm_apply.c:check_full", "src/drpm_apply.c:check_filesize"]}
{"id": "C76", "title": "Making leaves nothing behind", "statement": "drpm_make, with one package or two, for standard and rpm-only deltas, with and without an add block, whether it succeeds or fails, frees nothing that it does not hold, uses no pointer it never assigned, and leaves no memory, library object or file descriptor allocated or open.", "quantifier": "all packages, all options, all patterns of failing allocations, system calls and library calls", "why_tests_cant": "A leak or double free on a failure path needs the failure at exactly that call; tests cannot enumerate which calls fail on which input.", "anchors": ["src/drpm.c:drpm_make", "src/drpm_make.c:fill_nodiff_deltarpm", "src/drpm_make.c:parse_cpio_from_rpm_filedata", "src/drpm_diff.c:make_diff", "src/drpm_search.c:hash_create", "src/drpm_write.c:write_deltarpm", "src/drpm_rpm.c:rpm_read_archive"]}
{"id": "C77", "title": "Applying leaves nothing behind", "statement": "drpm_apply, from an old package file or from the installed files, whether it succeeds or fails, frees nothing that it does not hold and leaves no memory, library object or file descriptor allocated or open.", "quantifier": "all delta files, all old packages, all databases and installed files, all contents and evictions of the block cache, all patterns of failing allocations and system calls", "why_tests_cant": "A leak or double free on a failure path needs the failure at exactly that call; tests cannot enumerate which calls fail on which input.", "anchors": ["src/drpm.c:drpm_apply", "src/drpm_block.c:blocks_create", "src/drpm_block.c:blocks_destroy", "src/drpm_block.c:write_page_block", "src/drpm_block.c:fillblock_prelink", "src/drpm_write.c:compstrm_wrapper_finish", "src/drpm_compstrm.c:compstrm_init", "src/drpm_compstrm.c:compstrm_destroy"]}
{"id": "C52", "title": "An accepted sequence means the same files", "statement": "If drpm_check accepts a standard delta, or drpm_check_sequence its sequence ID, then the package found (installed, or the package file given) has, for every file of the old archive that the delta relies on, the same file at the same place of its file list: the same path, mode, size, digest, link target and device number. Any difference in one of these is refused, unless the hash of the two lists of records collides.", "quantifier": "all old packages a delta can be made from, all installed packages or package files it is checked against, all check modes, all hash functions without a collision on the two record strings", "why_tests_cant": "The claim is that no pair of different file lists is confused, which depends on the record format being uniquely readable for all names, targets and numbers; tests try a few differences.", "anchors": ["src/drpm_apply.c:expand_sequence", "src/drpm_make.c:seq_add", "src/drpm_make.c:parse_cpio_from_rpm_filedata", "src/drpm.c:drpm_check", "src/drpm.c:drpm_check_sequence"]}
{"id": "C78", "title": "A delta cut short is refused or means the same", "statement": "Whatever prefix of a delta is found at its path (drpm_make crashed or failed while writing it, or a transfer was cut off), drpm_read and drpm_apply refuse it with an error before anything is written, or treat it exactly as the whole delta: no prefix is ever mistaken for another delta. Of a delta that drpm_make wrote, every proper prefix is refused, apart from bytes that the compression library put after the last of the data and does not need.", "quantifier": "all delta files that are accepted, all cut positions, both types, all versions, all compression methods, all old packages and installed files it is applied to", "why_tests_cant": "There is one crash point per byte of every delta; a reader that misses one length check at one field accepts exactly the prefixes cut there.", "anchors": ["src/drpm_read.c:readdelta_rest", "src/drpm_read.c:readdelta_rpmonly", "src/drpm_read.c:read_deltarpm", "src/drpm_rpm.c:rpm_read", "src/drpm_write.c:write_deltarpm", "src/drpm.c:drpm_apply"]}
{"id": "C79", "title": "A delta is complete if and only if drpm_make says so", "statement": "Whichever system calls and allocations fail while drpm_make writes, and wherever a write stops: if it returns success then the delta at the output path and the sequence file (if asked for) are complete; otherwise what is at the output path is the file that was there before the call or a prefix of the delta, the sequence file is only touched once the delta is complete, and applying such a prefix is refused or does what the whole delta does. A call that is refused for its arguments or packages touches neither path.", "quantifier": "all packages and options, both types of delta, all results of every write (failing, short at any byte), of creating and reopening the file, and of the allocations in between", "why_tests_cant": "Every write can stop at every byte; tests run with writes that succeed.", "anchors": ["src/drpm_write.c:write_deltarpm", "src/drpm_write.c:write_seqfile", "src/drpm_rpm.c:rpm_write", "src/drpm.c:drpm_make"]}
{"id": "C80", "title": "A package is complete if drpm_apply says so", "statement": "Whichever writes fail or stop short while drpm_apply writes the new package: if it returns success then the file at the output path is exactly the one that an undisturbed call writes; otherwise it returns an error and leaves a prefix of that file. If nothing fails the outcome is that of the undisturbed call.", "quantifier": "all deltas, old packages and installed files, all compression methods, all results of every write (failing, short at any byte)", "why_tests_cant": "Every write can stop at every byte, and the writes are split between lead, header, uncompressed part and compressed part in a way that depends on the data; tests run with writes that succeed.", "anchors": ["src/drpm.c:drpm_apply", "src/drpm_write.c:compstrm_wrapper_write", "src/drpm_write.c:compstrm_wrapper_finish", "src/drpm_compstrm.c:compstrm_write", "src/drpm_compstrm.c:compstrm_finish", "src/drpm_rpm.c:rpm_write"]}
{"id": "C81", "title": "A made delta describes itself truthfully", "statement": "drpm_read can read the delta that drpm_make made of two packages, and its accessors report: the version and type asked for, the compression method asked for (or that of the new package), the NEVR of the old package as source, the NEVR of the new package as target, the low 32 bits of the size of the new package file (0 in version 1, which does not record it), its MD5, its payload compression, its lead and signature, and the sequence; for an rpm-only delta the sequence is the MD5 of header and payload of the old package. The sequence file consists of exactly the source NEVR, a dash, the sequence in hexadecimal and a newline.", "quantifier": "all pairs of packages within the limits of the format, standard deltas of versions 1 to 3 and rpm-only deltas, all options", "why_tests_cant": "The values pass through header export, marking, compression, parsing and conversion; whether all of them survive depends on every length and byte of two arbitrary packages.", "anchors": ["src/drpm.c:drpm_make", "src/drpm.c:drpm_read", "src/drpm.c:drpm_get_string", "src/drpm.c:drpm_get_uint", "src/drpm_read.c:deltarpm_to_drpm", "src/drpm_write.c:write_seqfile"]}
{"id": "C82", "title": "Nothing of an unchanged payload is stored", "statement": "If the data to be reproduced is the data of the old package, or the beginning of it, then the delta stores none of it: whatever the options, the internal data is empty, everything is copied, and with an add block every byte put into that block is zero. So the rpm-only delta from a package to itself can be made and read, and DRPM_TAG_INTDATALEN reports 0.", "quantifier": "all old payloads, all prefixes of them of 16 bytes or more, with and without an add block, all packages", "why_tests_cant": "Whether the search finds the copy depends on the hash table, its collisions and the scoring of matches over the whole payload, with wrapping arithmetic; tests show it for a few files.", "anchors": ["src/drpm_diff.c:make_diff", "src/drpm_search.c:hash_search", "src/drpm_search.c:hash_create", "src/drpm.c:drpm_make"]}
{"id": "C83", "title": "Applying a delta to installed files is memory-safe, whatever the files contain", "statement": "drpm_apply without an old package file, on any delta and with any files on the disk (missing, changed by hand or by prelink, longer or shorter than the package says, more of them than the library keeps open at a time), returns success or an error code: it never reads or writes outside a buffer, never reads memory that was not written, and never hangs.", "quantifier": "all delta files (hostile ones included), all package databases, all contents of all installed files, all cache sizes, with any decompressors and any rpmlib answers", "why_tests_cant": "The files are outside the control of the library and the order in which they are opened, closed and read again depends on the copies in the delta; tests have a handful of healthy files.", "anchors": ["src/drpm.c:drpm_apply", "src/drpm_block.c:fillblock_filesystem", "src/drpm_block.c:open_new_file", "src/drpm_block.c:get_open_file", "src/drpm_block.c:fillblock_prelink", "src/drpm_apply.c:expand_sequence", "src/drpm_apply.c:is_prelinked"]}
{"id": "C84", "title": "Checking is memory-safe, whatever is installed", "statement": "drpm_check and drpm_check_sequence, on any delta file or any sequence ID, in every check mode and with any contents of the installed files (missing, unreadable, changed, prelinked), return success or an error code: they never read or write outside a buffer, never use a value that was not assigned, and never hang.", "quantifier": "all delta files and sequence IDs, all package databases and packages, all contents of the files, all ways in which reads deliver them or fail, all check modes", "why_tests_cant": "The result depends on the file order in an untrusted string and on files outside the control of the library; a sequence of a few characters can name any number of files.", "anchors": ["src/drpm.c:drpm_check", "src/drpm.c:drpm_check_sequence", "src/drpm_apply.c:expand_sequence", "src/drpm_apply.c:check_full", "src/drpm_apply.c:check_filesize", "src/drpm_apply.c:check_prelink"]}
{"id": "C85", "title": "Applying reads every part of the installed files at most once", "statement": "If the old payload is at most 5000 blocks of 8192 bytes long, then drpm_apply to installed files asks the files for each block of the old payload at most once, however often and in whatever order the delta copies from it: the blocks read are those that the copies need, in the order in which they are needed first. So what is copied twice from a file is the same both times even if the file changes meanwhile.", "quantifier": "all sequences of copies, all internal data and add blocks, all old payloads within the limit, all values left in the cleanup counter by earlier calls", "why_tests_cant": "Whether a block is still held when it is needed again depends on the whole history of copies, on the table of last uses and on a counter that survives calls; tests have payloads of a few blocks.", "anchors": ["src/drpm_block.c:blocks_next", "src/drpm_block.c:get_block", "src/drpm_block.c:blocks_create", "src/drpm_block.c:fillblock_filesystem"]}
{"id": "C86", "title": "A failure of a compression library is reported", "statement": "While data are decompressed or compressed, a call of the compression library that reports that it cannot go on (corrupt data, a missing dictionary, no memory, a wrong state) makes the operation fail, and the operation fails only if there was such a call. When compression is finished, success means that the library has said that its output is complete.", "quantifier": "all behaviours of the libraries (any sequence of results, outputs and numbers of bytes taken), all cuttings of the input into pieces, all inputs", "why_tests_cant": "The libraries fail rarely (memory, corrupted state) and at any call; whether each code at each call is looked at and mapped to an error cannot be seen by running with libraries that work.", "anchors": ["src/drpm_decompstrm.c:readchunk_gzip", "src/drpm_decompstrm.c:readchunk_bzip2", "src/drpm_decompstrm.c:readchunk_lzma", "src/drpm_decompstrm.c:readchunk_lzip", "src/drpm_decompstrm.c:readchunk_zstd", "src/drpm_compstrm.c:writechunk_lzma", "src/drpm_compstrm.c:writechunk_zstd", "src/drpm_compstrm.c:finish_lzma", "src/drpm_compstrm.c:finish_zstd", "src/drpm_compstrm.c:finish_bzip2"]}
{"id": "C87", "title": "A delta that passes the full check can be applied to the installed files", "statement": "If drpm_check with DRPM_CHECK_FULL accepts a delta that drpm_make has made, then drpm_apply of that delta to the installed files succeeds and writes the new package, byte for byte. Nothing else need be known about the installed files: the check has looked at everything that matters (prelinked and grown files included), unless two different contents have the same digest.", "quantifier": "all pairs of packages, all options for standard deltas, all contents of the installed files, all package databases", "why_tests_cant": "It connects two long computations, the check and the reconstruction, over every file of the package; the check reads digests, the reconstruction reads blocks.", "anchors": ["src/drpm.c:drpm_check", "src/drpm.c:drpm_apply", "src/drpm_apply.c:expand_sequence", "src/drpm_apply.c:check_full", "src/drpm_block.c:fillblock_filesystem", "src/drpm_block.c:fillblock_prelink"]}
{"id": "C88", "title": "Applying to a package file does not depend on what the process did before", "statement": "drpm_apply with an old package file returns the same code and leaves the same bytes at the output path whatever calls of the library the process has made before: the counter that the block cache keeps in a static variable decides only when blocks are given up, never what is written, and never which error is reported; also for damaged deltas and when writes fail.", "quantifier": "all deltas (hostile ones included), all old packages, all values earlier calls can leave behind, all positions of a failing write", "why_tests_cant": "The effect depends on the history of the process and shows only with payloads that overflow the cache; a test starts in a fresh process.", "anchors": ["src/drpm_block.c:blocks_get_block", "src/drpm_block.c:blocks_next", "src/drpm.c:drpm_apply"]}
{"id": "C89", "title": "Only the regular files of the named package are looked at", "statement": "drpm_apply on installed files, drpm_check and drpm_check_sequence look, in the file system, only at regular files that are in the file list of the package that the delta (or the sequence ID) applies to and that it names: two systems that agree about these files give the same result and output for every delta, hostile ones included. drpm_check_sequence with DRPM_CHECK_NONE looks at no file; DRPM_CHECK_FILESIZES looks at the length only of files that have not grown.", "quantifier": "all deltas and sequence IDs (hostile ones included), all package databases, all pairs of systems that agree about the files of the package", "why_tests_cant": "It is about everything that is not looked at; a test has one file system and one delta.", "anchors": ["src/drpm.c:drpm_apply", "src/drpm.c:drpm_check", "src/drpm.c:drpm_check_sequence", "src/drpm_block.c:open_new_file", "src/drpm_apply.c:expand_sequence"]}
{"id": "C90", "title": "A delta relies on no file that may differ where the package is installed", "statement": "The sequence that drpm_make puts into a standard delta names exactly those entries of the old archive that are in the file list and are not regular files, or are regular files of the recorded size that are no configuration files, no ghosts and may not be missing, whose digest and size rpm verifies, which are no 32- or 64-bit programs outside of the library directories (if the package has colours) and not marked as patched. So the verdict of drpm_check and drpm_check_sequence is the same whatever an administrator has done to configuration files and the like.", "quantifier": "all archives and file lists, all options, all systems that agree about the other files", "why_tests_cant": "It is a statement about all files that are left out and all their possible contents; a test has one package and one state of the system.", "anchors": ["src/drpm_make.c:parse_cpio_from_rpm_filedata", "src/drpm_make.c:IN_MULTILIB_DIR", "src/drpm_apply.c:expand_sequence", "src/drpm.c:drpm_check", "src/drpm.c:drpm_check_sequence"]}
{"id": "C91", "title": "A delta can be made from every well-formed payload, and from the right data of it", "statement": "For every old package whose payload is a CPIO archive in the format newc and whose file list has proper digests, drpm_make does not fail on the archive, whatever files it holds, in whatever order, with whatever further entries. What the delta refers to is the archive, again in the format newc, of exactly the files it may rely on: each under its path, with the mode and device number of the file list and all other numbers zero, with the data from the payload (for a link, its target). The sequence holds the hash of the records of these files and their numbers.", "quantifier": "all newc archives below 16 GiB, all file lists, all options", "why_tests_cant": "It is a statement about all archives and file lists; the layout of an archive has alignment cases, several numeric formats and six kinds of files, which a test meets only in a few combinations.", "anchors": ["src/drpm_make.c:parse_cpio_from_rpm_filedata", "src/drpm_make.c:cpio_header_read", "src/drpm_make.c:cpio_header_write", "src/drpm_make.c:seq_add", "src/drpm.c:drpm_make"]}
{"id": "C92", "title": "What is made is a delta in the sense of the format, and every such delta can be applied", "statement": "The format of delta files is described apart from this library: the fields, their order and encoding for versions 1 to 3 and both types, and what the copies of a delta mean. What drpm_make writes is such a file, its copies rebuild the data of the new package from those of the old one, and it records name, sequence, MD5, size, compression, header length, lead and signature as they are. Conversely drpm_apply succeeds and writes the new package, byte for byte, with every file that is a delta from the old package to the new one in this sense, whoever made it and however it cuts the data into copies (also without the MD5 of the new package, also with an add block stored uncompressed). So the deltas can be exchanged with other programs; a mistake made in the writer and the reader alike would not go unnoticed.", "quantifier": "all packages, all options, all delta files in the format, all ways to cut the new data into copies, all versions and types", "why_tests_cant": "A round trip through the library cannot see a mistake that writer and reader share, and there are unboundedly many deltas for one pair of packages that this library would never make itself.", "anchors": ["src/drpm_write.c:write_deltarpm", "src/drpm_read.c:read_deltarpm", "src/drpm_read.c:readdelta_rest", "src/drpm.c:drpm_make", "src/drpm.c:drpm_apply", "src/drpm_deltarpm.c:deltarpm_encode_comp"]}
{"id": "C93", "title": "Standard deltas made from any choice of files can be applied", "statement": "Which files of the old package a standard delta is made from is the choice of whoever makes it: the sequence in the delta names them. For every old package, every choice of entries of its payload (also configuration files or files another program thought unchanged, which this library would leave out) and every way to write the order of the chosen files, the sequence is accepted and the old package read with it yields exactly the archive of the chosen files; and every standard delta from that archive to a new package, applied with drpm_apply, gives the new package byte for byte. What drpm_make itself produces is such a choice with such a sequence.", "quantifier": "all old packages, all choices of their files, all encodings of the order, all deltas from the archive of the chosen files", "why_tests_cant": "There are exponentially many choices of files and for each of them unboundedly many encodings and deltas; the library itself only ever makes one of them.", "anchors": ["src/drpm_apply.c:expand_sequence", "src/drpm_block.c:fillblock_rpm_standard", "src/drpm.c:drpm_apply", "src/drpm_make.c:parse_cpio_from_rpm_filedata"]}
{"id": "C94", "title": "Applying a delta needs bounded resources", "statement": "While the old data are read back for a delta, no more than 5000 blocks of 8 KiB are ever held in memory, the temporary file never has more blocks than the old data, and, when the old data come from installed files, no more than 50 of them are open at a time, none of them is listed twice and no closed one is referred to. This holds whatever the delta asks for, in whatever order, and whatever the old package or the installed files contain; it does not depend on the delta being well made.", "quantifier": "all sizes of old data, all lists of copies, all sequences of requests, all contents of packages and disks, all earlier calls in the process", "why_tests_cant": "A delta is a program of copies chosen by whoever made it: no test suite contains the sequence of requests that would make a cache grow without limit, and reaching the limits takes large packages.", "anchors": ["src/drpm_block.c:blocks_next", "src/drpm_block.c:get_block", "src/drpm_block.c:push_block", "src/drpm_block.c:write_page_block", "src/drpm_block.c:new_core_block", "src/drpm_block.c:open_new_file", "src/drpm_block.c:get_open_file", "src/drpm_block.c:fillblock_prelink"]}
{"id": "C95", "title": "Deltas can be applied in several threads at the same time", "statement": "Any number of calls of drpm_apply with old packages may run at the same time: whatever the schedule, and whatever happens to the one counter they share when two of them use it at once, each call returns what it returns when it runs alone and leaves the same file, also for damaged deltas and packages; and each call ends after a number of its own requests for old data that does not depend on the others.", "quantifier": "all numbers of calls, all deltas and packages, all schedules of their requests, all values the shared counter may take", "why_tests_cant": "There are unboundedly many interleavings, and a difference would show only in schedules a test cannot force.", "anchors": ["src/drpm_block.c:get_block", "src/drpm_block.c:blocks_next", "src/drpm.c:drpm_apply"]}
{"id": "C96", "title": "Updating along a chain of deltas", "statement": "However long the history of a package is and whichever kind and options each of its deltas has: the deltas between consecutive versions can be made, and applying them one after the other, each to the file the call before has written, turns the first package file into the last one, byte for byte, whatever earlier calls left behind in the processes. The deltas cannot be applied in a wrong order: if applying one succeeds, the file it is applied to has the name, epoch, version and release of the version it was made from and, for rpm-only deltas, its signature MD5.", "quantifier": "all histories of package versions of any length (conditions of C68 for each step), all kinds of deltas and options of each step, all states left behind by earlier calls; for the order: all files the delta is applied to", "why_tests_cant": "Histories have no bound on their length, and each delta is applied to a file that drpm itself has written.", "anchors": ["src/drpm.c:drpm_make", "src/drpm.c:drpm_apply"]}
{"id": "C97", "title": "A delta does not waste space", "statement": "In every delta that is made, each byte of the new data is either stored once or copied once: the stored bytes and the lengths of the copies add up to the length of the new data, the add block (before compression) has one byte for each copied byte, and there are at most as many copies as the new data have blocks of 32 bytes (plus one, and a factor for old data of more than 2 GiB). So before compression the contents of a delta are at most half as large again as the new data, plus the names, the sequence, the lead and signature, and the stored add block.", "quantifier": "all old and new data with at least 16 bytes (one of them below 2 GiB), with and without add block, all packages of C92", "why_tests_cant": "The number of copies depends on how the data match; the worst case is not known to a test.", "anchors": ["src/drpm_diff.c:make_diff", "src/drpm_diff.c:create_diff_copies", "src/drpm_diff.c:create_int_data_array", "src/drpm_search.c:hash_search", "src/drpm_write.c:write_deltarpm"]}
{"id": "C98", "title": "Size alone is no obstacle to writing", "statement": "When nothing fails and there is room on the disk, drpm_make and drpm_apply write their output, however large it is. (Violated: each piece is written with one call of write(2), which takes at most 0x7ffff000 bytes on Linux, and a short count is taken for an error. What is smaller than that limit is always written; a delta of more than seven times the limit never is, nor is a package with a large payload reproduced from its identity delta.)", "quantifier": "all packages, deltas, options and limits of write(2), all states left behind by earlier calls", "why_tests_cant": "Outputs of more than two gibibytes are not in a test suite, and the limit is one of the system, not of the code.", "anchors": ["src/drpm_write.c:write_deltarpm", "src/drpm.c:drpm_apply", "src/drpm_rpm.c:rpm_write", "src/drpm_compstrm.c:compstrm_write"]}
{"id": "C99", "title": "Names of the same file", "statement": "drpm_make and drpm_apply change no file but their outputs, and the outputs are computed from what the inputs contained when the function was called, also when two of the names given stand for the same file (the same name, a link). (Violated: drpm_apply empties the new package before it reads the delta and the old package, so updating a package in place fails and destroys it; drpm_make writes the sequence file over a delta of the same name and reports success.)", "quantifier": "all volumes (every way in which names may stand for files), all contents, options, faults and names", "why_tests_cant": "A test tries separate names in a temporary directory; which names coincide is a property of the whole file system.", "anchors": ["src/drpm.c:drpm_make", "src/drpm.c:drpm_apply", "src/drpm_write.c:write_deltarpm", "src/drpm_write.c:write_seqfile"]}
{"id": "C100", "title": "Files that change while a delta is applied", "statement": "drpm_apply with installed files as the old package takes no lock: while it runs, other processes may replace, shorten, lengthen or remove the installed files, whether drpm has opened them already or not. Whatever they do and whenever, drpm_apply stays within its buffers and terminates, and if it reports success the new package has the MD5 recorded in the delta (or in the signature, if the delta records none), so it is the package the delta was made for unless MD5 collides. (The first part is violated if a file that looks prelinked is restored at the wrong moment.)", "quantifier": "all deltas, installed packages, file contents and schedules of changes: a change of any file before each block of old data that is fetched, behind open descriptors too, and once more between looking for prelinked files and reading them", "why_tests_cant": "The outcome depends on the moments at which other processes act; a test sees one schedule, and the windows are a few system calls wide.", "anchors": ["src/drpm_block.c:fillblock_filesystem", "src/drpm_block.c:fillblock_prelink", "src/drpm_block.c:open_new_file", "src/drpm.c:drpm_apply"]}
{"id": "C101", "title": "A call that failed or was interrupted can be repeated", "statement": "Let the delta and the sequence file be files of their own, neither of the packages nor each other, and likewise the output of drpm_apply. However often drpm_make or drpm_apply was called before, whether those calls failed in whatever way or were killed at any moment, and whatever they left in their output files: the next call that nothing disturbs has the same result and writes the same output files as if it were the first, and every other file is as it was at the beginning.", "quantifier": "all packages, options, deltas, and all finite histories of disturbed calls: every fault of writing, flushing, closing and allocating, every moment of a kill and every content then left in the outputs", "why_tests_cant": "The histories are unbounded in number and length; a test repeats a call after one chosen failure.", "anchors": ["src/drpm.c:drpm_make", "src/drpm.c:drpm_apply", "src/drpm_write.c:write_deltarpm", "src/drpm_write.c:write_seqfile"]}
{"id": "C102", "title": "The functions that look at a delta do not contradict each other", "statement": "drpm_check, drpm_check_sequence and drpm_apply test separately whether a delta fits. For a standard delta, drpm_check and drpm_check_sequence with its sequence ID (source NEVR and sequence as drpm_get_string reports them) return the same code, whatever is installed. Whenever drpm_apply succeeds with a package file or the installed files, drpm_check_sequence accepts the sequence ID for the same package file (whose signature has no MD5 or a proper one) or the installed package. No check accepts a delta that drpm_apply never accepts. (The last part is violated for rpm-only deltas.)", "quantifier": "all delta files, hostile ones too, all package files, package databases and installed files, both check modes", "why_tests_cant": "It relates three pieces of code over all inputs; a test compares them on a few deltas.", "anchors": ["src/drpm.c:drpm_check", "src/drpm.c:drpm_check_sequence", "src/drpm.c:drpm_apply", "src/drpm_apply.c:expand_sequence"]}
{"id": "C103", "title": "Memory asked for while reading a delta", "statement": "The memory drpm_read and drpm_apply ask for while they read a delta is in proportion to what the delta contains: for a delta that is accepted, all blocks together are not larger than the file and what its compressed part expands to; for any other file the same holds, whatever lengths it announces. (Violated: lengths are believed before anything is read, so that a file of 16 bytes makes the library ask for any size below 4 GiB, and one of 228 bytes for 2^64 - 1 bytes. It is always only the last request that is not covered.)", "quantifier": "all files, well-formed and hostile, all decoders", "why_tests_cant": "The announced lengths range over all 32-bit and 64-bit numbers, and the request is given back before the function returns, so that its result does not show it.", "anchors": ["src/drpm_read.c:readdelta_rest", "src/drpm_read.c:readdelta_rpmonly", "src/drpm_read.c:read_deltarpm"]}
{"id": "C104", "title": "Short and failing reads of a delta", "statement": "read(2) may return fewer bytes than asked for, and may fail. Whatever the reads of a delta do, drpm_read, drpm_check and drpm_apply never take it for another delta: what is accepted is what the file contains, otherwise an error is returned. If no read fails, the result is that of the whole file, in whatever pieces the data arrive. (The last part is violated: the fixed-size fields at the beginning are read with one call each, and a short read is taken for a damaged file.)", "quantifier": "all files, well-formed or not, all decoders that work from left to right, and all schedules: for each call of read, that it fails or how much it returns", "why_tests_cant": "How much a read returns is decided by the kernel, the file system and signals; a test on a local disk sees whole reads only.", "anchors": ["src/drpm_read.c:read_be32", "src/drpm_read.c:readdelta_rpmonly", "src/drpm_read.c:read_deltarpm", "src/drpm_decompstrm.c:decompstrm_init"]}
{"id": "C105", "title": "Packages and deltas that are replaced while they are read", "statement": "A package or delta may be replaced by another version (renamed over its name, as mirrors and build systems do) while drpm_make or drpm_apply runs. The call then fails, or works with one version: a delta that drpm_make makes with success leads to one of the versions of the new package, and drpm_apply writes with success only the package the delta was made for. (The part about drpm_make is violated: header and payload are read through two calls of open, and the delta may describe a mixture of two versions that never was a package.)", "quantifier": "all packages, deltas, options, and all pairs of versions that are found under a name when it is opened first and when it is opened again", "why_tests_cant": "The window between the two calls of open is a few microseconds; a test does not hit it.", "anchors": ["src/drpm_rpm.c:rpm_read", "src/drpm_rpm.c:rpm_read_archive", "src/drpm_read.c:readdelta_standard", "src/drpm.c:drpm_make", "src/drpm.c:drpm_apply"]}
{"id": "C106", "title": "The old package as a file or installed", "statement": "A standard delta can be applied to the file of the old package or to the installed package. If the files that the delta relies on are installed as they are in the payload (or changed by prelink in a way that can be undone), the two calls of drpm_apply return the same and leave the same file behind. This holds not only for deltas that are right but for every delta file, also for damaged ones and ones made to deceive, and whatever earlier calls in the process did.", "quantifier": "all delta files, all old packages and installations of them with the same chosen files, all earlier histories of the process", "why_tests_cant": "The two ways share no code for reading the old data; a test compares them for deltas that are right, seldom for damaged ones, and for few packages.", "anchors": ["src/drpm.c:drpm_apply", "src/drpm_block.c:fillblock_rpm_standard", "src/drpm_block.c:fillblock_filesystem", "src/drpm_block.c:fillblock_prelink"]}
