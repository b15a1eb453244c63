{
 "claims": [
  {
   "property": "C01",
   "status": "proved",
   "theorems": [
    "Drpm.C01_roundtrip",
    "Drpm.C01_C02_roundtrip_regions"
   ],
   "note": ""
  },
  {
   "property": "C02",
   "status": "proved",
   "theorems": [
    "Drpm.C02_roundtrip",
    "Drpm.C01_C02_roundtrip_regions"
   ],
   "note": ""
  },
  {
   "property": "C03",
   "status": "partial",
   "theorems": [
    "Drpm.C03_terminates_in_bounds_partial",
    "Drpm.C03_empty",
    "Drpm.C03_no_wraparound",
    "Drpm.C03_violated"
   ],
   "note": "Proved for new payloads of 0 bytes and of 16 bytes and more; for 1 to 15 bytes the code reads out of bounds (proved). The main loop is also modelled in size_t arithmetic and proved to give the same result."
  },
  {
   "property": "C04",
   "status": "proved",
   "theorems": [
    "Drpm.C04_matches_real"
   ],
   "note": ""
  },
  {
   "property": "C05",
   "status": "proved",
   "theorems": [
    "Drpm.C05_rolling",
    "Drpm.C05_search_state"
   ],
   "note": ""
  },
  {
   "property": "C06",
   "status": "partial",
   "theorems": [
    "Drpm.C06_walk_partial",
    "Drpm.C06_internal",
    "Drpm.C06_violated"
   ],
   "note": "Regions of 2 GiB and more reached by a seek are emitted wrongly (proved)."
  },
  {
   "property": "C07",
   "status": "proved",
   "theorems": [
    "Drpm.C07_roundtrip",
    "Drpm.C07_made",
    "Drpm.C07_old_length_truncated"
   ],
   "note": "Codec and rpmlib head are parameters; lengths of 4 GiB and more do not fit versions 1 and 2 (C07_old_length_truncated)."
  },
  {
   "property": "C08",
   "status": "proved",
   "theorems": [
    "Drpm.C08_roundtrip",
    "Drpm.C08_representation",
    "Drpm.C08_min_lost",
    "Drpm.C08_never_emitted",
    "Drpm.C08_adjust"
   ],
   "note": "C08_never_emitted covers the seeks, C08_adjust the offset adjustments."
  },
  {
   "property": "C09",
   "status": "partial",
   "theorems": [
    "Drpm.C09_partial",
    "Drpm.C09_violated"
   ],
   "note": "A declared external length within 2^32 of 2^64 lets copies outside pass (proved)."
  },
  {
   "property": "C10",
   "status": "partial",
   "theorems": [
    "Drpm.C10_partial",
    "Drpm.C10_violated_name",
    "Drpm.C10_violated_counts"
   ],
   "note": "The full property is false of the code (counterexamples proved)."
  },
  {
   "property": "C11",
   "status": "partial",
   "theorems": [
    "Drpm.C11_partial",
    "Drpm.C11_violated",
    "Drpm.C11_violated_wrap"
   ],
   "note": "The full property is false of the code (counterexamples proved)."
  },
  {
   "property": "C12",
   "status": "proved",
   "theorems": [
    "Drpm.C12_roundtrip",
    "Drpm.C12_encode_fails_iff",
    "Drpm.C12_decode_fails_iff",
    "Drpm.C12_decode_table",
    "Drpm.C12_decode_range"
   ],
   "note": "Levels are stored in eight bits; the build with zstd is modelled."
  },
  {
   "property": "C13",
   "status": "proved",
   "theorems": [
    "Drpm.C13_be32_bigEndian",
    "Drpm.C13_be64_bigEndian",
    "Drpm.C13_parse16",
    "Drpm.C13_parse32",
    "Drpm.C13_parse64",
    "Drpm.C13_be32_roundtrip",
    "Drpm.C13_be64_roundtrip",
    "Drpm.C13_be32_unparse",
    "Drpm.C13_be64_unparse"
   ],
   "note": ""
  },
  {
   "property": "C14",
   "status": "proved",
   "theorems": [
    "Drpm.C14_roundtrip",
    "Drpm.C14_parse_iff",
    "Drpm.C14_md5",
    "Drpm.C14_sha256"
   ],
   "note": ""
  },
  {
   "property": "C15",
   "status": "proved",
   "theorems": [
    "Drpm.C15_roundtrip"
   ],
   "note": ""
  },
  {
   "property": "C16",
   "status": "proved",
   "theorems": [
    "Drpm.C16_encode_in_bounds"
   ],
   "note": ""
  },
  {
   "property": "C17",
   "status": "partial",
   "theorems": [
    "Drpm.C17_violated_write",
    "Drpm.C17_violated_read",
    "Drpm.C17_violated_shift",
    "Drpm.C17_step_partial",
    "Drpm.C17_accepted_partial",
    "Drpm.C17_made_partial",
    "Drpm.C17_accepts",
    "Drpm.C17_overflows",
    "Drpm.C17_tame"
   ],
   "note": "The full property is false of the code (three counterexamples proved). C17_accepts, C17_overflows and C17_tame say exactly which orders are accepted, which do harm and which do not, in terms of the format (OrderSpec), for numbers of at most 22 digits; longer ones shift too far (C17_violated_shift)."
  },
  {
   "property": "C18",
   "status": "proved",
   "theorems": [
    "Drpm.C18_verifies"
   ],
   "note": ""
  },
  {
   "property": "C19",
   "status": "proved",
   "theorems": [
    "Drpm.C19_roundtrip",
    "Drpm.C19_accepted"
   ],
   "note": "For sequences below 2 GiB, where the size computed for the line does not wrap."
  },
  {
   "property": "C20",
   "status": "proved",
   "theorems": [
    "Drpm.C20_roundtrip",
    "Drpm.C20_accepted"
   ],
   "note": ""
  },
  {
   "property": "C21",
   "status": "proved",
   "theorems": [
    "Drpm.C21_same_payload",
    "Drpm.C21_applied",
    "Drpm.C21_violated",
    "Drpm.C21_violated_twice"
   ],
   "note": "Proved under the stated layout conditions; the violations show that each condition is needed."
  },
  {
   "property": "C22",
   "status": "proved",
   "theorems": [
    "Drpm.C22_header_then_archive",
    "Drpm.C22_applied"
   ],
   "note": ""
  },
  {
   "property": "C23",
   "status": "proved",
   "theorems": [
    "Drpm.C23_cache_exact_rpm",
    "Drpm.C23_cache_exact_files",
    "Drpm.C40_prelinked_partial",
    "Drpm.C23_delivers"
   ],
   "note": "For installed files that prelink changed, where several blocks are filled at once, see C40_prelinked_partial."
  },
  {
   "property": "C24",
   "status": "proved",
   "theorems": [
    "Drpm.C24_no_block_lost"
   ],
   "note": ""
  },
  {
   "property": "C25",
   "status": "proved",
   "theorems": [
    "Drpm.C25_tables",
    "Drpm.C25_empty"
   ],
   "note": ""
  },
  {
   "property": "C26",
   "status": "proved",
   "theorems": [
    "Drpm.C26_verified",
    "Drpm.C26_right",
    "Drpm.C26_made_rpmonly",
    "Drpm.C26_made_standard"
   ],
   "note": "MD5, rpmlib and the compressors are parameters. C26_made_*: under the conditions of C81, for the delta that drpm_make made."
  },
  {
   "property": "C27",
   "status": "proved",
   "theorems": [
    "Drpm.C27_prefix_verbatim",
    "Drpm.C27_any_chunking",
    "Drpm.C27_succeeds",
    "Drpm.C27_too_short"
   ],
   "note": "The encoder is a parameter; fewer bytes than the uncompressed length is undefined behaviour (C27_too_short)."
  },
  {
   "property": "C28",
   "status": "proved",
   "theorems": [
    "Drpm.C28_file_and_memory",
    "Drpm.C28_uncompressed"
   ],
   "note": "The encoder is a parameter."
  },
  {
   "property": "C29",
   "status": "proved",
   "theorems": [
    "Drpm.C29_history",
    "Drpm.C29_chunking_irrelevant",
    "Drpm.C29_refines_rdN",
    "Drpm.C29_memory_safe"
   ],
   "note": "The decoder is a parameter."
  },
  {
   "property": "C30",
   "status": "partial",
   "theorems": [
    "Drpm.C30_partial",
    "Drpm.C30_violated",
    "Drpm.C30_violated_truncation"
   ],
   "note": "The full property is false of the code: errors that look like format errors end the stream silently (counterexamples proved)."
  },
  {
   "property": "C31",
   "status": "proved",
   "theorems": [
    "Drpm.C31_detected",
    "Drpm.C31_unambiguous",
    "Drpm.C31_uncompressed"
   ],
   "note": ""
  },
  {
   "property": "C32",
   "status": "partial",
   "theorems": [
    "Drpm.C32_partial",
    "Drpm.C32_violated_short",
    "Drpm.C32_violated_magic"
   ],
   "note": "The full property is false of the code for add blocks stored uncompressed (counterexamples proved)."
  },
  {
   "property": "C33",
   "status": "partial",
   "theorems": [
    "Drpm.C33_valid",
    "Drpm.C33_usable",
    "Drpm.C33_error_unchanged_partial",
    "Drpm.C33_violated_patches",
    "Drpm.C33_violated_destroy"
   ],
   "note": "Validity is proved for every history; add_patches that runs out of memory half way leaves an unusable string, and destroying a NULL handle follows it (counterexamples proved)."
  },
  {
   "property": "C34",
   "status": "partial",
   "theorems": [
    "Drpm.C34_strings",
    "Drpm.C34_from_start",
    "Drpm.C34_safe_partial",
    "Drpm.C33_violated_patches"
   ],
   "note": "Proved for every history when memory is available; with failing allocations one case is undefined (counterexample proved)."
  },
  {
   "property": "C35",
   "status": "partial",
   "theorems": [
    "Drpm.C35_defaults",
    "Drpm.C35_copy",
    "Drpm.C35_violated_self",
    "Drpm.C35_violated_memory"
   ],
   "note": "Copying an object onto itself, or running out of memory, loses strings while reporting success (counterexamples proved)."
  },
  {
   "property": "C36",
   "status": "proved",
   "theorems": [
    "Drpm.C36_accessors",
    "Drpm.C36_null"
   ],
   "note": ""
  },
  {
   "property": "C37",
   "status": "proved",
   "theorems": [
    "Drpm.C37_split",
    "Drpm.C37_injective"
   ],
   "note": ""
  },
  {
   "property": "C38",
   "status": "proved",
   "theorems": [
    "Drpm.C38_full",
    "Drpm.C38_full_original",
    "Drpm.C38_full_sound",
    "Drpm.C38_size",
    "Drpm.C38_size_sound"
   ],
   "note": ""
  },
  {
   "property": "C39",
   "status": "partial",
   "theorems": [
    "Drpm.C39_partial",
    "Drpm.C39_violated"
   ],
   "note": "Proved for ELF files whose section names lie where the code can use them; otherwise it frees a pointer into the middle of a buffer (counterexample proved)."
  },
  {
   "property": "C40",
   "status": "partial",
   "theorems": [
    "Drpm.C40_soon_partial",
    "Drpm.C40_partial",
    "Drpm.C40_forward_partial",
    "Drpm.C40_cache_soon_partial",
    "Drpm.C40_cache_forward_partial",
    "Drpm.C40_prelinked_partial",
    "Drpm.C40_violated_order",
    "Drpm.C40_violated_skipped",
    "Drpm.C40_violated_many",
    "Drpm.C40_violated_link"
   ],
   "note": "The full property is false of the code (four proved counterexamples); proved whenever the archive order is the file-list order and every file that is needed again is needed before 50 others were (always so with at most 50 files, or if blocks are read in order), for single blocks and for the reconstruction through a cache with room for all blocks; with prelinked files, for at most 50 files and if no block begins inside a link target. The prelink program is a parameter."
  },
  {
   "property": "C41",
   "status": "proved",
   "theorems": [
    "Drpm.C41_growth"
   ],
   "note": ""
  },
  {
   "property": "C42",
   "status": "proved",
   "theorems": [
    "Drpm.C42_room"
   ],
   "note": ""
  },
  {
   "property": "C43",
   "status": "partial",
   "theorems": [
    "Drpm.C43_partial",
    "Drpm.C43_violated"
   ],
   "note": "Proved for altered archives below 4 GiB; the code cuts larger distances to 32 bits."
  },
  {
   "property": "C44",
   "status": "partial",
   "theorems": [
    "Drpm.C44_partial",
    "Drpm.C44_violated",
    "Drpm.C44_files"
   ],
   "note": "The full property is false of the code for every package with a compressed payload (proved); uncompressed payloads are reproduced."
  },
  {
   "property": "C45",
   "status": "proved",
   "theorems": [
    "Drpm.C45_first_tag"
   ],
   "note": ""
  },
  {
   "property": "C46",
   "status": "proved",
   "theorems": [
    "Drpm.C46_consecutive",
    "Drpm.C46_wraps"
   ],
   "note": ""
  },
  {
   "property": "C47",
   "status": "partial",
   "theorems": [
    "Drpm.C47_partial",
    "Drpm.C47_violated",
    "Drpm.C47_violated_zeroed",
    "Drpm.C47_names_partial",
    "Drpm.C47_refused_partial"
   ],
   "note": "The full property is false of the code: every drpm_make with two patch lists executes undefined behaviour (proved for all lists); proved are the decision on lists in memory and the calls without lists."
  },
  {
   "property": "C48",
   "status": "proved",
   "theorems": [
    "Drpm.C48_rpmonly",
    "Drpm.C48_standard",
    "Drpm.C48_installed",
    "Drpm.C48_demo_rpmonly",
    "Drpm.C48_demo_standard",
    "Drpm.C48_demo_installed"
   ],
   "note": "Package files, and installed files within the limits of C40; rpmlib, MD5 and the compression libraries are parameters with the stated conditions; sizes within the limits of the format."
  },
  {
   "property": "C49",
   "status": "partial",
   "theorems": [
    "Drpm.C49_partial",
    "Drpm.C49_violated"
   ],
   "note": "The full property is false of the code (proved for every call that gets that far)."
  },
  {
   "property": "C50",
   "status": "proved",
   "theorems": [
    "Drpm.C50_strerror",
    "Drpm.C50_errors"
   ],
   "note": ""
  },
  {
   "property": "C51",
   "status": "partial",
   "theorems": [
    "Drpm.C51_partial",
    "Drpm.C51_violated"
   ],
   "note": "The full property is false of the code (counterexample proved)."
  },
  {
   "property": "C54",
   "status": "partial",
   "theorems": [
    "Drpm.C54_partial",
    "Drpm.C54_files_partial",
    "Drpm.C54_violated"
   ],
   "note": "Proved for sequences below 2 GiB; above that the size passed to malloc wraps (counterexample proved)."
  },
  {
   "property": "C55",
   "status": "proved",
   "theorems": [
    "Drpm.C55_not_installed",
    "Drpm.C55_check",
    "Drpm.C55_digests",
    "Drpm.C55_sequence"
   ],
   "note": ""
  },
  {
   "property": "C56",
   "status": "proved",
   "theorems": [
    "Drpm.C56_sequence",
    "Drpm.C56_delta",
    "Drpm.C56_rpm",
    "Drpm.C56_files"
   ],
   "note": ""
  },
  {
   "property": "C57",
   "status": "proved",
   "theorems": [
    "Drpm.C57_memory_rpm",
    "Drpm.C57_memory_files",
    "Drpm.C57_memory_disk",
    "Drpm.C57_limit"
   ],
   "note": ""
  },
  {
   "property": "C58",
   "status": "partial",
   "theorems": [
    "Drpm.C58_partial",
    "Drpm.C58_violated"
   ],
   "note": "Proved for digest strings of at most 65 characters; longer ones overflow the buffer (counterexample proved)."
  },
  {
   "property": "C59",
   "status": "partial",
   "theorems": [
    "Drpm.C59_gzip",
    "Drpm.C59_bzip2",
    "Drpm.C59_lzma",
    "Drpm.C59_lzip",
    "Drpm.C59_none",
    "Drpm.C59_partial",
    "Drpm.C59_violated"
   ],
   "note": "Proved for all methods but zstd, whose loop drops what the decoder still holds when the input ends (counterexample proved for a decoder that keeps zstd's promises); for zstd proved if the decoder takes the end of the input last. The libraries are parameters that keep the promises of their manuals."
  },
  {
   "property": "C60",
   "status": "proved",
   "theorems": [
    "Drpm.C60_gzip",
    "Drpm.C60_bzip2",
    "Drpm.C60_lzma",
    "Drpm.C60_zstd",
    "Drpm.C60_lzip",
    "Drpm.C60_roundtrip",
    "Drpm.C28_uncompressed"
   ],
   "note": "For writes below 4 GiB each; the libraries are parameters that keep the promises of their manuals."
  },
  {
   "property": "C61",
   "status": "partial",
   "theorems": [
    "Drpm.C61_partial",
    "Drpm.C61_refused",
    "Drpm.C61_violated",
    "Drpm.C61_violated_api"
   ],
   "note": "Proved for the levels the libraries have, and for all levels of the other methods; levels 10 to 99 of gzip, bzip2 and lzma are undefined (counterexample proved)."
  },
  {
   "property": "C62",
   "status": "proved",
   "theorems": [
    "Drpm.C62_head",
    "Drpm.C62_plain",
    "Drpm.C62_unpacked",
    "Drpm.C62_both",
    "Drpm.C62_chunks"
   ],
   "note": "If both digests are asked for while decompressing, the one of the file leaves out the payload (C62_both); no caller asks for both."
  },
  {
   "property": "C63",
   "status": "proved",
   "theorems": [
    "Drpm.C63_safe",
    "Drpm.C63_refused",
    "Drpm.C63_short",
    "Drpm.C63_nameless"
   ],
   "note": "rpmlib's header reading is a parameter; the decompressors must return."
  },
  {
   "property": "C64",
   "status": "proved",
   "theorems": [
    "Drpm.C64_roundtrip"
   ],
   "note": ""
  },
  {
   "property": "C65",
   "status": "partial",
   "theorems": [
    "Drpm.C65_compressor",
    "Drpm.C65_algorithm",
    "Drpm.C65_format",
    "Drpm.C65_level_partial",
    "Drpm.C65_level_violated"
   ],
   "note": "Proved for method, format and algorithm, and for levels that are numbers of one or two digits; other level strings are not refused (counterexamples proved)."
  },
  {
   "property": "C66",
   "status": "proved",
   "theorems": [
    "Drpm.C66_files",
    "Drpm.C66_counts",
    "Drpm.C66_none"
   ],
   "note": ""
  },
  {
   "property": "C67",
   "status": "proved",
   "theorems": [
    "Drpm.C67_mark",
    "Drpm.C67_delta",
    "Drpm.C67_bare"
   ],
   "note": "C67_bare: a header without a region is given one, so that it is not reproduced. The rest for headers whose data are all in one region, as rpmbuild makes them; rpmlib is a parameter that keeps the laws of RpmFileSpec.lean, which RpmToy.lean shows can be met."
  },
  {
   "property": "C68",
   "status": "proved",
   "theorems": [
    "Drpm.C68_rpmonly",
    "Drpm.C68_standard",
    "Drpm.C68_installed",
    "Drpm.C68_demo_rpmonly",
    "Drpm.C68_demo_standard",
    "Drpm.C68_demo_installed",
    "Drpm.C40_forward_servable"
   ],
   "note": "With the conditions of C48, stated for package files; what C48 asked of rpmlib is derived from its laws. For installed files any number of files is allowed (Servable; C40_forward_servable gives a simple case), as far as the defects of C40 do not interfere."
  },
  {
   "property": "C69",
   "status": "proved",
   "theorems": [
    "Drpm.C69_refused",
    "Drpm.C69_made"
   ],
   "note": ""
  },
  {
   "property": "C70",
   "status": "proved",
   "theorems": [
    "Drpm.C70_refused",
    "Drpm.C70_applied"
   ],
   "note": ""
  },
  {
   "property": "C71",
   "status": "partial",
   "theorems": [
    "Drpm.C71_partial",
    "Drpm.C71_files_partial",
    "Drpm.C71_violated_header",
    "Drpm.C71_violated_signature",
    "Drpm.C71_violated_counts"
   ],
   "note": "Holds for every delta file and package that avoid the defects named in the conditions (each with its own counterexample); missing: those inputs, for which the property is false (applying to installed files is C83)."
  },
  {
   "property": "C53",
   "status": "partial",
   "theorems": [
    "Drpm.C53_partial",
    "Drpm.C53_files_partial",
    "Drpm.C53_archive",
    "Drpm.C53_violated_name",
    "Drpm.C53_violated_short"
   ],
   "note": "Holds for all packages and options that avoid the defects named in the conditions; missing: those inputs, for which the property is false (CPIO names of length zero, new archives of 1 to 15 bytes, digests over 65 characters, levels the compressor does not have), old archives of 16 GiB and more, and failing allocations."
  },
  {
   "property": "C72",
   "status": "proved",
   "theorems": [
    "Drpm.C72_read_destroy"
   ],
   "note": "In the ownership model (Own.lean): schedules stand for all inputs and all patterns of failing calls."
  },
  {
   "property": "C73",
   "status": "partial",
   "theorems": [
    "Drpm.C73_failed_read_partial",
    "Drpm.C73_violated"
   ],
   "note": "Holds unless one of five kinds of calls fails; for each of these the property is false (witness proved)."
  },
  {
   "property": "C74",
   "status": "proved",
   "theorems": [
    "Drpm.C74_sequence_package"
   ],
   "note": "In the ownership model (Own.lean)."
  },
  {
   "property": "C75",
   "status": "partial",
   "theorems": [
    "Drpm.C75_check_partial",
    "Drpm.C75_violated_leak",
    "Drpm.C75_violated_free",
    "Drpm.C75_violated_open"
   ],
   "note": "No invalid free, and at most one block left, unless one of the named calls fails; false as it stands: every successful check leaves one block, and three failing calls end in an invalid free (witnesses proved)."
  },
  {
   "property": "C76",
   "status": "partial",
   "theorems": [
    "Drpm.C76_partial",
    "Drpm.C76_violated_new",
    "Drpm.C76_violated_write",
    "Drpm.C76_violated_options",
    "Drpm.C76_violated_sequence",
    "Drpm.C76_violated_free",
    "Drpm.C76_violated_hash",
    "Drpm.C76_violated_patches"
   ],
   "note": "No invalid free and no use of an unassigned pointer unless one of the named calls fails, and a success gives everything back; failures leave at most one thing unless one of the named calls fails. False as it stands (witnesses proved)."
  },
  {
   "property": "C77",
   "status": "partial",
   "theorems": [
    "Drpm.C77_package_partial",
    "Drpm.C77_installed_partial",
    "Drpm.C77_violated_leak",
    "Drpm.C77_violated_installed",
    "Drpm.C77_violated_free",
    "Drpm.C77_violated_cache",
    "Drpm.C77_violated_codec"
   ],
   "note": "No invalid free unless one of the named calls fails, and a success with a package file gives everything back; failures leave at most the state of the compression library unless one of the named calls fails. False as it stands (witnesses proved)."
  },
  {
   "property": "C52",
   "status": "proved",
   "theorems": [
    "Drpm.C52_lists",
    "Drpm.C52_check",
    "Drpm.C52_sequence"
   ],
   "note": "The hash is a parameter that must not collide on the two record strings compared; file-list strings without NUL bytes and numbers that fit the header fields; the same digest algorithm in both packages."
  },
  {
   "property": "C78",
   "status": "proved",
   "theorems": [
    "Drpm.C78_prefix",
    "Drpm.C78_made",
    "Drpm.C78_head",
    "Drpm.C78_apply",
    "Drpm.C78_files"
   ],
   "note": "Decompressors deliver a prefix of the data from a prefix of the input, and rpmlib refuses an incomplete header (parameters; met by the examples)."
  },
  {
   "property": "C79",
   "status": "partial",
   "theorems": [
    "Drpm.C79_success_partial",
    "Drpm.C79_prefix",
    "Drpm.C79_refused",
    "Drpm.C79_faultless",
    "Drpm.C79_cut",
    "Drpm.C79_violated"
   ],
   "note": "All of it for the delta; of the sequence file only a prefix is guaranteed: C79_violated proves that a success with an empty sequence file is possible, because the results of fprintf and fclose are not looked at. close and Fclose are taken to succeed."
  },
  {
   "property": "C80",
   "status": "proved",
   "theorems": [
    "Drpm.C80_success",
    "Drpm.C80_prefix",
    "Drpm.C80_untouched",
    "Drpm.C80_faultless"
   ],
   "note": "Faults are those of the writes, of Fopen in rpm_write, and one error before the first write; close is taken to succeed."
  },
  {
   "property": "C81",
   "status": "proved",
   "theorems": [
    "Drpm.C81_rpmonly",
    "Drpm.C81_standard"
   ],
   "note": "For deltas between two packages; the identity rpm-only delta of a single package is C44. rpmlib's NEVR is taken to depend on name, epoch, version and release only (NevrLaw, met by the example)."
  },
  {
   "property": "C82",
   "status": "proved",
   "theorems": [
    "Drpm.C82_unchanged",
    "Drpm.C82_rpmonly"
   ],
   "note": "C82_unchanged is about the difference of any two payloads (standard and rpm-only deltas); C82_rpmonly says it of package files and the accessor."
  },
  {
   "property": "C83",
   "status": "partial",
   "theorems": [
    "Drpm.C83_partial",
    "Drpm.C83_files_partial",
    "Drpm.C83_violated_skipped",
    "Drpm.C83_violated_elf",
    "Drpm.C83_violated_prelink"
   ],
   "note": "Holds for all deltas and databases that avoid the defects named in the conditions, for all contents of the files except ELF files of another size with unusable section names, and with any number of files changed by prelink (whatever undoing prelink yields) if the files are in place, no block begins inside the target of a link and the delta states the length of the old data. False as it stands (witnesses proved). Missing besides those: failing allocations."
  },
  {
   "property": "C84",
   "status": "partial",
   "theorems": [
    "Drpm.C84_check_partial",
    "Drpm.C84_sequence_partial",
    "Drpm.C84_files_partial",
    "Drpm.C84_sequence_files_partial",
    "Drpm.C84_violated_order",
    "Drpm.C84_violated_elf"
   ],
   "note": "Holds for all inputs that avoid the defects named in the conditions; prelinked files are included. False as it stands (witnesses proved). Missing besides those: failing allocations (C75)."
  },
  {
   "property": "C85",
   "status": "proved",
   "theorems": [
    "Drpm.C85_once",
    "Drpm.C85_all",
    "Drpm.C85_limit"
   ],
   "note": "For files that are not prelinked (fillblock_prelink reads several blocks at a time). C85_limit: with a smaller cache blocks are read again."
  },
  {
   "property": "C86",
   "status": "partial",
   "theorems": [
    "Drpm.C86_gunzip",
    "Drpm.C86_bunzip",
    "Drpm.C86_unlzma",
    "Drpm.C86_unzstd",
    "Drpm.C86_lzip_piece",
    "Drpm.C86_lzip_end",
    "Drpm.C86_write_lzma",
    "Drpm.C86_write_zstd",
    "Drpm.C86_finish_lzma",
    "Drpm.C86_finish_zstd",
    "Drpm.C86_violated"
   ],
   "note": "Proved for decompression with all methods and compression with lzma, xz and zstd. The full property is false of the code for compression with gzip and bzip2, where the codes are not looked at (proved)."
  },
  {
   "property": "C87",
   "status": "partial",
   "theorems": [
    "Drpm.C87_partial",
    "Drpm.C87_violated",
    "Drpm.C87_demo"
   ],
   "note": "Proved for the bytes of the package files and the delta, for all contents of the installed files. Partial because of the defects of C40 (C87_violated for a delta made by drpm_make for a package whose file list begins with a configuration file; further witnesses C40_violated_order, C40_violated_many, C40_violated_link and the block boundaries of C83): the entries of the archive must be those of the file list, in its order, and either at most 50 of the files are non-empty and no block begins inside a link target, or prelink has changed no file, the old payload has at most 5000 blocks and the copies come back to a file before using 50 others (condition Servable)."
  },
  {
   "property": "C88",
   "status": "proved",
   "theorems": [
    "Drpm.C88_history",
    "Drpm.C88_faults",
    "Drpm.C88_files"
   ],
   "note": "Without hypotheses: for every delta, package and value of the counter. For installed files the counter may matter beyond 5000 blocks (C40)."
  },
  {
   "property": "C89",
   "status": "partial",
   "theorems": [
    "Drpm.C89_apply_partial",
    "Drpm.C89_regular_partial",
    "Drpm.C89_files_partial",
    "Drpm.C89_check",
    "Drpm.C89_sequence",
    "Drpm.C89_nothing",
    "Drpm.C89_sizes",
    "Drpm.C89_violated"
   ],
   "note": "Checking: proved as stated. Applying: proved for all files of the package that the delta names, with every delta, and for the regular files only if the delta names the files in the order of the list; with another order a symbolic link of the package is followed and what is behind it gets into the output (C89_violated)."
  },
  {
   "property": "C90",
   "status": "proved",
   "theorems": [
    "Drpm.C90_names",
    "Drpm.C90_files"
   ],
   "note": "C90_names for every archive and file list within the limits of the formats; C90_files for the bytes of the package files, under the conditions of C68 on packages and sizes."
  },
  {
   "property": "C91",
   "status": "proved",
   "theorems": [
    "Drpm.C91_archive",
    "Drpm.C91_newc",
    "Drpm.C91_files"
   ],
   "note": "C91_archive for every newc payload (the padding may be anything); C91_files: with C68, for the bytes of the package files, old payloads below 2 GiB whose padding is zero (see C21 for other padding)."
  },
  {
   "property": "C92",
   "status": "proved",
   "theorems": [
    "Drpm.C92_makes_rpmonly",
    "Drpm.C92_makes_standard",
    "Drpm.C92_rpmonly",
    "Drpm.C92_standard",
    "Drpm.C92_installed",
    "Drpm.C92_demo"
   ],
   "note": "The format is DeltaSpec.lean. For standard deltas the data the sequence stands for are those of makeCpio (C91 says what they are); other choices of files are C93. Conditions on packages as in C48."
  },
  {
   "property": "C93",
   "status": "proved",
   "theorems": [
    "Drpm.C93_reads",
    "Drpm.C93_standard",
    "Drpm.C93_installed",
    "Drpm.C93_made",
    "Drpm.C93_demo",
    "Drpm.C93_demo_installed"
   ],
   "note": "For old packages as files and, where the defects of C40 do not interfere (DiskServes), for installed files. The chosen entries must have the sizes of the file list, be named once in the payload, and have well-formed digests; conditions on the new package as in C48."
  },
  {
   "property": "C94",
   "status": "proved",
   "theorems": [
    "Drpm.C94_cache",
    "Drpm.C94_package",
    "Drpm.C94_installed",
    "Drpm.C94_apply"
   ],
   "note": "For the states after any sequence of successful requests (within a request the counts only grow, so the bounds hold there too). Blocks in memory are the core and free blocks; fillblock_prelink has one more descriptor and one more buffer of its own (PlSt)."
  },
  {
   "property": "C95",
   "status": "proved",
   "theorems": [
    "Drpm.C95_threads",
    "Drpm.C95_ends",
    "Drpm.C95_call"
   ],
   "note": "The calls share only the static counter of get_block (checked by reading all of src/). The C standard leaves simultaneous use of it undefined; the model lets its value become anything. Old packages, not installed files. Calls of MD5, the codecs and rpmlib are taken to be safe in threads."
  },
  {
   "property": "C96",
   "status": "proved",
   "theorems": [
    "Drpm.C96_chain",
    "Drpm.C96_order"
   ],
   "note": "For package files; the conditions of each step are those of C68 (structure Updates). A wrong order means a file of another version: the file is recognised by NEVR and, for rpm-only deltas, by the MD5 in its signature header."
  },
  {
   "property": "C97",
   "status": "proved",
   "theorems": [
    "Drpm.C97_diff",
    "Drpm.C97_rpmonly",
    "Drpm.C97_standard"
   ],
   "note": "Before compression (the codecs are parameters). The search of drpm_search.c is part of the model; the bound holds whatever it finds."
  },
  {
   "property": "C98",
   "status": "partial",
   "theorems": [
    "Drpm.C98_make_partial",
    "Drpm.C98_apply_partial",
    "Drpm.C98_violated_make",
    "Drpm.C98_violated_part",
    "Drpm.C98_violated_apply"
   ],
   "note": "Violated for large outputs: a short count of write(2) is an input/output error and the rest is not written. Proved: below the limit the outcome is the same as without it; the violations are proved for every limit. For the identity delta the write is rpmlib's Fwrite, taken to be one write(2)."
  },
  {
   "property": "C99",
   "status": "partial",
   "theorems": [
    "Drpm.C99_make_others",
    "Drpm.C99_make",
    "Drpm.C99_apply_others",
    "Drpm.C99_apply_partial",
    "Drpm.C99_installed_others",
    "Drpm.C99_installed_partial",
    "Drpm.C99_violated_make",
    "Drpm.C99_violated_old",
    "Drpm.C99_violated_delta",
    "Drpm.C99_violated_installed"
   ],
   "note": "Violated when the output of drpm_apply is a name of one of its inputs, and when the sequence file is a name of the delta. Proved: nothing else changes; drpm_make may write over its inputs; drpm_apply on separate files. Installed files as the old package: the same, as long as the output is not one of the files that the delta names (otherwise violated). Not modelled: names that change during the call; an installed file that is the output has the same contents each time it is opened."
  },
  {
   "property": "C100",
   "status": "partial",
   "theorems": [
    "Drpm.C100_still",
    "Drpm.C100_verified",
    "Drpm.C100_right",
    "Drpm.C100_safe_partial",
    "Drpm.C100_violated"
   ],
   "note": "Violated if a file stops looking prelinked between fillblock_filesystem and fillblock_prelink. Proved: what a success means, for every schedule and even for blocks from anywhere; memory safety if the files change between blocks in any way, under the conditions of C83 at every moment. Not modelled: changes between two system calls of one function on the same file."
  },
  {
   "property": "C101",
   "status": "proved",
   "theorems": [
    "Drpm.C101_make",
    "Drpm.C101_apply"
   ],
   "note": "That outputs and inputs are separate files is a condition of the statement; otherwise see C99. A killed call is taken to leave anything in its own output files and to change no other file."
  },
  {
   "property": "C102",
   "status": "partial",
   "theorems": [
    "Drpm.C102_checks",
    "Drpm.C102_package",
    "Drpm.C102_installed",
    "Drpm.C102_violated"
   ],
   "note": "Violated by drpm_check for rpm-only deltas, which it accepts whenever the package is installed, although they cannot be applied to installed files. Proved: the rest. That a delta accepted by the full check can be applied is C87."
  },
  {
   "property": "C103",
   "status": "partial",
   "theorems": [
    "Drpm.C103_same",
    "Drpm.C103_read",
    "Drpm.C103_partial",
    "Drpm.C103_violated",
    "Drpm.C103_violated_all"
   ],
   "note": "Proved for every delta that is accepted. For files that are refused, proved of all requests but the last; the last one may be arbitrarily large (two proved counterexamples). Requests inside rpmlib, the decompression libraries and the stream's own buffer are not counted."
  },
  {
   "property": "C104",
   "status": "partial",
   "theorems": [
    "Drpm.C104_drpm_read",
    "Drpm.C104_drpm_check",
    "Drpm.C104_drpm_apply",
    "Drpm.C104_accepted",
    "Drpm.C104_refused",
    "Drpm.C104_pieces_partial",
    "Drpm.C104_violated"
   ],
   "note": "Proved for every schedule: what is accepted is what the file contains, and otherwise there is an error. That short reads do not matter is proved for all reads but those of the head (two, or seven for rpm-only deltas), which are not repeated (proved violation). The reads of rpmlib are not in the schedule, failures of lseek are left out, the decoders are functions of the bytes that arrive, and a failing read in the stream is reported as a format error."
  },
  {
   "property": "C105",
   "status": "partial",
   "theorems": [
    "Drpm.C105_make",
    "Drpm.C105_partial",
    "Drpm.C105_violated",
    "Drpm.C105_apply",
    "Drpm.C105_delta",
    "Drpm.C105_undisturbed",
    "Drpm.C105_rpmonly"
   ],
   "note": "Violated by drpm_make, which opens a package twice by name and makes a delta for a mixture (proved for every update, with a demonstration). Proved: what drpm_make does is what it does for the mixture; it is one of the versions if these differ on one side of the end of the header only; drpm_apply succeeds only with an output that has the recorded digest, and what replaces an rpm-only delta has no effect. A file that is changed in place between two reads of one descriptor is not modelled for packages and deltas (for installed files it is, C100)."
  },
  {
   "property": "C106",
   "status": "partial",
   "theorems": [
    "Drpm.C106_partial",
    "Drpm.C106_files_partial",
    "Drpm.C106_violated"
   ],
   "note": "For every delta file whose sequence stands for the chosen files and that gives their length, with nothing assumed of copies, data, digests, signature or header. The defects of C40 are kept out by DiskServes; without it the property is violated (proved: one call writes the new package, the other fails). Rpm-only deltas and source packages, which drpm_apply refuses without a package file, are left out."
  }
 ]
}