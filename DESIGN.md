# A Lean 4 model of drpm

* `properties.jsonl` lists the properties (made by `tools/props.py`).
* `lean/Verif/*.lean` holds the model and the helper lemmas, `lean/Verif/*Spec.lean` the small
  specifications, `lean/Verif/Props/*.lean` the property theorems with their examples.
* `MANIFEST.json` maps each property to its theorems (made by `tools/manifest.py` from
  `tools/claims.py`).
* `AXIOMS.md` lists the axioms of every theorem in the manifest (made by `tools/axioms.py`).
* `seeded/LOG.jsonl` records the experiments with wrong programs (made by `tools/mutate.py`).
* `tools/coverage.py` prints, for every C function, the definitions that cite its lines.

## 1. Conventions of the model

* A byte is `UInt8`, a byte string is `List UInt8`. C strings are byte strings without the NUL.
* Integers are `Nat`; wherever the C code truncates or wraps, the model says `% 2^32`, `% 2^64`
  and so on. `(int32_t)x` is `s32 x : Int`.
* A C function returns `Out α`: `ok a`, `err e` (one `DRPM_ERR_*` code), `ub` (the real program
  would execute undefined behaviour here: an access outside a buffer, an invalid free, an oversized
  shift, a read of an uninitialised value), or `loop`. Loops that are not structurally recursive
  take fuel; running out of fuel is `loop`, and "terminates" is a theorem that says it does not
  occur. A theorem about `.ok` or `.Defined` therefore excludes undefined behaviour and hanging.
* Accesses outside buffers are not assumed away: the accessors `rd`, `rdBlk` yield `ub`.
* Pointers, where sharing matters (block cache, open files, options), are numbers into a heap.
* Every definition cites the C lines it models and names its simplifications.
* There is a second model of the same functions, the ownership model (`Own*.lean`): blocks, library
  objects and file descriptors are numbers, the heap is the list of live numbers, freeing what is not
  live is `ub`, and everything else (contents, outcomes of calls, lengths of lists, numbers of rounds)
  is a decision of a schedule, so that "for all schedules" covers all inputs and all patterns of
  failing calls. Allocation failure (`DRPM_ERR_MEMORY`) is modelled there and for the option object
  (`Options.lean`); in the other parts `malloc` succeeds.

## 2. Trusted base

* Lean 4.33.0's kernel. No axiom of our own, no `sorry`, no `native_decide`, no `bv_decide`. Every
  theorem depends at most on `propext`, `Classical.choice` and `Quot.sound`; `AXIOMS.md` has the
  list for each theorem. Mathlib is not imported.
* The reading of the C code. The model was written by reading the source; nothing ties it to the
  compiled library except the citations.
* The C implementation: two's complement, `int` of 32 bits, `size_t` of 64 bits (LP64), as on every
  platform RPM packages are built for today. Conversions that the C standard leaves to the
  implementation (`(int32_t)x` for large `x`) are two's complement.
* The external components below behave as the hypotheses of the theorems say.

### Parameters

| component | in the model | hypotheses where a theorem needs them |
|---|---|---|
| MD5, SHA-256 | functions `H : Bytes → Bytes` (`digest` for files) | length 16 (32); never injectivity, except that C38 says "unless digests collide" |
| zlib, bzip2, liblzma, lzlib, zstd | `Enc`, `Events`, `Decoder`: a stream of pieces that ends, fails or goes on | what was compressed decompresses to the input (`Decodes`); compressed data begin with the magic of the method. For C59 and C60 the single calls of the libraries are the parameters (`LibCall`, `LzDec`), and the hypotheses are the promises of the manuals (`CodecSpec.lean`) |
| rpmlib | `Rpmlib`: its functions on headers (read, export, import, size, get, put, delete, reload, iterate) | `OnDisk`: reading what was exported gives it back; `HeaderLaws` (`RpmFileSpec.lean`): laws of get, put, delete and reload. `RpmToy.lean` is an instance. For the memory safety of whole calls on arbitrary bytes (`Props/SafeFiles.lean`) only `SoundLib` is assumed: exported headers have their two counts and less than 2^31 bytes, the region of a header is a header, headers can be reloaded, data of sixteen elements take at least sixteen bytes; and `SoundUnpack` of the decompressors. Up to C58 header, signature, file list, NEVR and installed packages are inputs (`Rpm`, `Pkg`, `Db`, `ApplyEnv`, `MakeEnv`); C68 derives them from files |
| prelink program | `Disk.undo`, `Sys.undo` | the undone file has the recorded contents (`Installed`) |
| filesystem | name → contents; `creat` may fail; `read` may return any chunking where it matters (C29, C38) | files do not change during a call |

## 3. What is modelled

| C file | modelled | where | not modelled |
|---|---|---|---|
| drpm.c | everything; `drpm_destroy` and failing calls in the ownership model | Api, Make, Apply, Recon, Check, Patches, OwnRead, OwnCheck, OwnApply, OwnMake, WriteFault | |
| drpm_apply.c | everything (file order, checks, ELF detection) | Seq, Cpio, Check, Prelink, OwnCheck | `checksum_*` are the parameter `digest`; the child process of `prelink_open` is a parameter |
| drpm_block.c | everything; `blocks_destroy` and failing calls in the ownership model | Blocks, Recon, Cpio, OpenFiles, PrelinkFill, OwnApply | |
| drpm_compstrm.c, drpm_decompstrm.c | everything, the loops around the libraries with the libraries' functions as parameters; `*_destroy` and failing calls in the ownership model | Strm, Format, Codec, OwnRead, OwnApply, OwnMake | |
| drpm_deltarpm.c | everything | CompCode, OwnRead | |
| drpm_diff.c | everything; failing calls in the ownership model | Diff, OwnMake | |
| drpm_make.c | everything; failing calls in the ownership model | Seq, Cpio, Make, Patches, OwnMake | |
| drpm_options.c | everything, with failing allocations | Options | |
| drpm_read.c | everything | Format, Api, OwnRead; short reads in ShortReads, ShortReadsApi; requests in Requests | |
| drpm_rpm.c | everything, over rpmlib's functions on headers; failing calls in the ownership model | RpmFile, Cpio, Api, Apply, OwnRead; the two calls of `open` in Replaced | |
| drpm_search.c | the hash part (lines 60-366) | Search | the suffix sort (lines 376-681), which nothing calls |
| drpm_utils.c | everything | Utils | |
| drpm_write.c | everything; failing calls in the ownership model | Format, Strm, Api, OwnApply, OwnMake; writes that fail in WriteFault | |

## 4. The properties

"Violated" means that the full property is false of the code: a theorem `Cnn_violated…` proves it
with a witness (or for all inputs of a class), and a theorem `Cnn_partial` proves the property under
the condition that excludes these inputs. Section 5 lists the defects.

| id | model | proof |
|---|---|---|
| C01, C02 | `makeDiff` (search, extension, regions, copy lists), `reconWrites` | loop invariant "everything before the current position is reproduced" for any search that respects the bounds, then for the hash search; copy lists by induction over the regions |
| C03 | `hashCreate`, `hashSearch`, `matchLen`, `diffLoop` with fuel and checked reads | lexicographic measure, invariants on the table; `makeDiffW` repeats the main loop in `size_t` arithmetic and equals it; violated for 1 to 15 bytes |
| C04, C05 | `hashSearch`, `rollHash` | loop invariant; algebra of rotation and xor |
| C06 | `createDiffCopies` | induction over the regions; violated for 2 GiB regions |
| C07, C08 | `writeDelta`, `readDelta`, `smEncode`/`smDecode` | field by field; `C08_adjust` from the facts about the altered archive; `C07_made` shows that what `drpm_make` writes meets the conditions |
| C09, C51 | `intCheck`, `extCheck`, counts | induction; violated near 2^64 and for 2^31 copies |
| C10, C11 | sizes in 32-bit arithmetic, version bytes | definedness of every step; violated |
| C12, C13, C14, C42 | `encodeComp`, `createBe32`…, `dumpHex`/`parseHex`, `resizeCap` | arithmetic; complete finite tables by `decide` |
| C15, C16, C17 | `seqAdd`…, `decodeSeq` | round trip by induction on the list; buffer invariant; violated for hostile sequences; exact description of the outcome for every sequence with numbers of at most 22 digits, by refinement of a grammar (`OrderSpec`) |
| C18, C20, C21, C41, C43, C46 | `makeCpio`, `expandSeq`, `stdStep`, `cpioExtend`, `adjust` | specification `Entries`/`altered` of archives (`CpioSpec.lean`); both sides refine it |
| C19, C37 | `seqLine`, `splitSeqId`, `splitNevr` | string lemmas |
| C22–C25, C57 | `blocksCreate`, `blocksNext`, `getBlock`, page file | heap invariant (`Inv`), refinement to plain indexing over the history of requests |
| C26, C44, C45, C48, C49 | `drpmMake`, `drpmApply` | composition of the refinements; C26_right with the MD5 that `drpmRead` reports, C26_made_* with C81 |
| C27–C30, C32 | `csWrite`…, `dsRead`…, `wrWrite`… | invariants over call histories |
| C59, C60 | `roomLoop`, `inputLoop`, `finLoop`, `lzPiece`, `lzRest` over a library's calls | simulation: what is left of the stream and of the data after each call; progress bounds the number of rounds; violated by zstd's loop |
| C61 | `compOpen`, `strmOpen`, and their callers `applyWrite` and `compressDelta` | case analysis; what is refused is reported by the callers (`C61_refused`); violated |
| C62–C64 | `rpmRead`, `rpmWrite` over `Rpmlib` | specification `PkgFile` of package files; the code's steps computed for it; `makeFiles` and `applyFiles` on packages without a name (`C63_nameless`) |
| C65, C66 | `getComp`, `getLevel`, `getAlgo`, `getPayFmt`, `getFileInfo` | decision logic; induction over the file list; violated for levels |
| C67 | `patchFormat`, `newSignature`, `standardHead` | from the laws of rpmlib: a reloaded header is determined by its data |
| C68 | `makeFiles`, `applyFiles`, `applyInstalled` | C48 with its conditions derived from C62 to C67 |
| C69 | `drpmMake` | decision logic, both directions |
| C70 | `drpmApply` | decision logic, both directions; what acceptance by `readDelta` guarantees |
| C71 | `drpmApply` as a whole | `Good` outcomes composed step by step; a source that fails is compared with one that goes on, which the cache refinement covers (`reconWrites_good`); for the bytes of both files with `SoundLib` (`C71_files_partial`) |
| C53 | `drpmMake` as a whole | `Good` outcomes composed step by step; loop invariant of the archive loop (`MkInv`): position inside the archive, buffer allocated up to a multiple of 65536, at most 33 nibbles of sequence per 110 bytes of archive; for the bytes of both packages with `SoundLib` (`C53_files_partial`) |
| C72–C75 | `Own.drpmRead`, `Own.drpmDestroy`, `Own.drpmCheck`, `Own.drpmCheckSequence` | a small separation logic over schedules (`Spec`, `Gives`): every function holds exactly its arguments before and its result, plus what it forgets, afterwards; C73 and C75 violated |
| C76 | `Own.drpmMake` with the diff, the walk over the archive, writing and cleanup | the same logic; every stage an `MStep` with what is empty before and what is held after it; violated in several ways |
| C77 | `Own.drpmApply` with cache, compression stream and cleanup | the same logic; every stage a `Step` with what is still empty before and what is open after it; violated in several ways |
| C31 | `detectComp` | decision logic over the first eight bytes |
| C33, C34, C35 | option heap, `ocall` | invariant over call histories, with failing allocations |
| C36, C50, C54 | accessors, `toDrpm` | decision tables over all integers |
| C38, C55, C56, C58 | `checkFull`, `checkFilesize`, `checkPrelink`, `drpmCheck`, `drpmCheckSequence` | induction over chunks of the file; control flow |
| C52 | `expandSeq`, `seqMd5`, `decodeSeq`, `makeCpio` | the records hashed are uniquely readable (`fileRecord_inj`), the order a sequence decodes to does not depend on the file count; any hash that does not collide on the two strings |
| C78 | `readDelta`, `rpmRead`, `drpmApply`, `makeFiles` | every parser step uses exactly the bytes it needs: the result does not depend on what follows, and any proper prefix of them is refused (`Tight`, closed under sequencing); the head of a standard delta is a package file |
| C79 | `drpmMakeOn`: `drpm_make` with a result for each `write`, `creat`, `Fopen`, `malloc` on the way out | each step against the run without faults: the same, or an error and a prefix; with C78 for what a prefix means; false for the sequence file (defect 36) |
| C80 | `drpmApplyOn`: `drpm_apply` with a result for each `write`, through the wrapper and the compression stream | simulation, step by step (`BodySim`) |
| C81 | `makeFiles` followed by `drpmRead` and the accessors, on package files | the delta is a `Made` one (as in C48/C68), then C36 with the NEVR of the marked header; `NevrLaw` says on which tags the NEVR depends |
| C82 | `makeDiff` with its hash search, then files and accessors as in C81 | invariant of the search loop: with the alignment of the beginning every byte is predicted, so every score is full and no match is worth leaving it (add block); the first block is in its own table slot, so the first probe finds everything (no add block) |
| C83 | `drpmApply` with `diskFiller` as a whole | every step of the cache and of the reconstruction branches on lengths only, so the invariants of the cache hold with all contents blanked, over a source that may fail and may hand over several blocks (`EraseLemmas`, `CacheMay`); invariants of the table of open files and of the header buffer (`InstalledSafe`) and of the walk over blocks with prelinked files (`InstalledPrelink`); for the bytes of the delta and headers of the database (`C83_files_partial`) |
| C84 | `drpmCheck`, `drpmCheckSequence` as a whole | `Good` outcomes composed step by step; the order by the exact description of the decoder (C17); for the bytes of the delta or package (`C84_files_partial`, `C84_sequence_files_partial`) |
| C85 | the block cache over a source that notes what it is asked for | refinement indexed by the list of requests to come (`CacheOnce.lean`): with room for all blocks only blocks without further request are given up |
| C86 | the loops of `Codec.lean` over a library that notes the codes it returns | induction on the calls; iterates of the call without input for finishing; an inductive relation for lzlib |
| C87 | `checkDeltaFile` and `applyInstalled` on the delta of `makeFiles` | what a passed check says of each file (C55, C38) gives the condition on installed files of C68; the answer of `isPrelinked` does not depend on how much of the file was read (`Props/Checked.lean`) |
| C88 | `drpmApply` on a package file with two values of the static counter | the cache tells the data of the old payload whatever it gives up, up to the first failing read (`HistoryLemmas.lean`: `Out.Match`, `extCopies_told`) |
| C89 | `drpmApply` on installed files, `drpmCheck`, `drpmCheckSequence` with two systems | congruence through `open_new_file`, the block fillers and the checks (`OnlyLemmas.lean`); violated for applying with a hostile order |
| C90 | `makeCpio` (`keepFile`, `skipReg`, `inMultilibDir`); `checkDeltaFile`, `checkSeqFile` on the delta of `makeFiles` | specification `Picks` of the files a delta may rely on, in terms of the bits of rpm's flags (`KeepSpec.lean`); with C89 for the checks |
| C91 | `makeCpio` (`mkLoop`, `readHead`, `entryHdr`, `mkFinish`), `makeFiles` | independent specification of newc archives from cpio(5) (`NewcSpec.lean`): header as text of hexadecimal numbers, name, padding, data; what is made is `usedArchive` of the files that are used; total: no error, no undefined behaviour |
| C92 | `drpmMake`, `drpmApply`, `writeStream`, `readDelta`, `reconLoop` | independent specification of the delta format (`DeltaSpec.lean`): contents `DeltaInfo`, bytes `text`, meaning `Rebuilds`; the writer writes the text (`writeStream_text`), the reader reads it (`read_rpmonly`, `read_standard`), the loop rebuilds what the specification says, and conversely (`RebuildLemmas.lean`) |
| C93 | `expandSeq`, `stdStep`, `drpmApply` | specification of a choice of files and its sequence (`PickSpec.lean`: `Chosen`, `OrderIs`, `SequenceOf`); every order code is decoded to the files it names (`expand_picked`), the old package yields the archive of the chosen files (invariant `PickInv`), and with C92 every delta from it is applied |
| C94 | `blocksNext`, `grabBlock`, `pushBlock`, `writePage`, `fsBlock`, `plBlock` | invariants without any condition on the delta: the blocks in memory are counted and the count is limited, pages carry different block numbers below the number of blocks (`CacheBound`), the open files are counted (`FsBound`); by induction over any sequence of requests (`Reached`) |
| C95 | `Threads.lean`: the loop of `drpm_apply` as a program of requests (`reconProg`, shown equal to `reconLoop`), processes with a shared counter, schedules | the state of a call under any schedule is that of a run alone with some sequence of counter values (`SoFar`, induction over the schedule); the outcome does not depend on that sequence (`reconWrites_shared`, generalising C88) |
| C96 | `makeChain`, `applyChain` over `makeFiles`, `applyFiles` | induction over the history with C68 for each step; the order: success gives the NEVR and MD5 recorded in the delta (C70), which are those of the version it was made from |
| C97 | `makeDiff` with `diffLoop`, `copiesLoop`, `intDataLoop` | invariants of the loops: regions are consecutive, each found match advances by 32 bytes, splits of copies happen only at 2 GiB; the sizes of the parts of the format (`DeltaInfo.text`) are added up |
| C98 | `drpmMakeOn`, `drpmApplyOn` (C79, C80) with a `write` that takes at most `max` bytes | every function of `WriteFault.lean` run with the limit does the same as without, or stops with an error after at least `max` bytes; with the prefix theorems of C79 and C80 the output was too large then; violated by any piece larger than the limit |
| C99 | `Vol`: names stand for numbered files; `makeNamed`, `applyNamed`: the order of reading, creating and writing in `drpm_make` and `drpm_apply`, around `drpmMakeOn` and `drpmApplyOn`; `applyNamedInstalled` with the installed files on the same volume | contents of other files are kept by `Vol.set`; an empty file is neither a delta nor a package, which decides the calls whose output is one of the inputs |
| C100 | `Moving.lean`: `movingFiller`, the fetching of a block with files that differ from block to block (also behind open descriptors) and between `fillblock_filesystem` and `fillblock_prelink`; `applyMoving`, and `applyAnyhow` with blocks from anywhere | the final check does not depend on where the blocks come from; the invariant of C83 says nothing about the disk, so its step lemma is used with another disk for every block |
| C101 | `Retry.lean`: `MakeAttempt`, `ApplyAttempt`: a call with any faults, or killed and leaving anything in its outputs | induction over the history: only the outputs change, and the calls of C99 do not look at what is in them |
| C102 | `checkDeltaFile`, `checkSeqFile`, `applyFiles`, `applyInstalled` on the same delta | the sequence ID splits into what the delta says (C19); then the same tests in the same order; a successful call has passed the tests of the check without looking at files |
| C103 | `readDeltaM`: the readers of `readDelta` with a list of the sizes given to `malloc` | same results as `readDelta`; every reader uses up at least as many bytes as it asks for, composed over sequencing; violated for announced lengths |
| C104 | `readDeltaOn`: `readDelta` with a schedule that says for each `read` whether it fails and how much it returns | readers related to those of C01 by "fails or does the same"; the stream gets a prefix of the data, so the lemmas of C78 apply; violated for the head |
| C105 | `rpmOfTwice`, `makeReplaced`, `applyReplaced`: the two calls of `open` by which a package (or the head and the rest of a standard delta) is read find different files | equal to the call with a mixture of the versions; then C68 and C26; violated by `drpm_make` |
| C106 | `drpmApply` with the two sources `.rpm` and `.installed`, for one and the same file | both are the reconstruction from the archive of the chosen files (C93, C23, C40), for whatever delta; violated through C40 |
| C39 | `isPrelinked` with ownership of the buffer | specification `HasUndo`; violated |
| C40 | `fsBlock`, `plBlock` over the files of a disk | specification of the archive in terms of the installed files (`OpenFilesSpec.lean`); the list of open files is the list of the files used last (`Recent`), so a file used again before 50 others is still open; through the cache each block is read once, where it is needed first (C85); violated in four ways |
| C47 | `readRpmlist`, `patchesRead`, `isUnpatched` with uninitialised memory | every run with lists is undefined; decision logic of lists in memory |

## 5. Where the code violates a property

1. C06/C01: `create_diff_copies` 329-334: a region of 2^31 bytes or more reached by a seek: the seek
   is emitted, then overwritten by `old_off = offset += INT32_MAX`.
2. C17: `expand_sequence` 149 (off by one, twice) and 118-130 (unbounded shift).
3. C10: `readdelta_rest`: allocation sizes wrap in 32 bits; `nevr_len + 1` wraps. C54: the size of
   the hexadecimal form of a sequence of 2 GiB wraps.
4. C11: the version byte is not range-checked.
5. C09: a declared external length within 2^32 of 2^64 lets copies at negative positions pass.
   An empty external data block makes `blocks_create` report an overflow (`C25_empty`).
6. C03: `hash_search` computes `new_len - HSIZE` in unsigned arithmetic.
7. C32: an uncompressed add block shorter than 8 bytes, or one that begins with a magic number.
8. C30: `decompstrm_read_until_eof` treats `DRPM_ERR_FORMAT` as end of file.
9. C44: the identity rpm-only delta writes the decompressed payload.
10. C40: `open_new_file`/`get_open_file` index twice; stale pointers after more than 50 files; a
    block that begins inside a link target is read too far.
11. C39: `is_prelinked` frees a pointer into the middle of a buffer; `elf32`/`elf64` sign-extend.
12. C38: a file that has grown still passes a full check (the statement of C38 says so).
13. C47: `patches_read` works on uninitialised structures.
14. C33/C34/C35: `drpm_make_options_copy` reports success when memory runs out, copying an object
    onto itself drops its strings, `add_patches` may leave a dangling string.
15. C49: `drpm_apply` creates the output file before it reads its inputs.
16. C21: contents of entries that are not regular files, padding bytes other than zero, and repeated
    entries are treated differently by make and apply.
17. C43: gaps of 2^32 bytes and more are cut to 32 bits.
18. C51: copy counts of 2^31 and more wrap to a small array.
19. C58: `parse_hex` writes a digest string into 32 bytes of stack before its length is checked.
20. C27: fewer bytes than the uncompressed length make `compstrm_wrapper_finish` use uninitialised
    bytes (`C27_too_short`).
21. C59: `readchunk_zstd` 757-770 stops as soon as the input has been taken, although the output
    buffer is full and the decoder holds more; at the end of the stream this data is lost silently.
22. C61: `compstrm_init` ignores what `deflateInit2`, `BZ2_bzCompressInit` and `lzma_lzma_preset` say
    about levels 10 to 99, and the stream is used uninitialised.
23. C65: `rpm_get_comp_level` 631-634 takes "-5" for level 65531 and what is no number for level 0.
24. C62: `rpm_read` with both digests while decompressing leaves the payload out of the file's digest
    (`C62_both`; no caller asks for both).
25. C73: `readdelta_standard` 420-427 forgets the package when reading, the compression or the seek
    fails; `readchunk_zstd` 744-770 forgets its buffer on every error; `drpm_read` 84-90 forgets the
    handle when the conversion fails.
26. C75: `rpm_read_header` 1050-1090 never frees the exported header (one block per successful check
    or apply against the database), frees the members of an uninitialised structure when the copy of
    the NEVR cannot be allocated, and frees the iterator's header when the export fails;
    `is_prelinked` frees a pointer into its buffer (C39); `check_filesize` and `check_full` leave the
    file open when `is_prelinked` fails.
27. C77: `blocks_create` 190-228 frees the structure and returns an error, but the caller's pointer
    keeps pointing to it, and `drpm_apply` destroys it again; when the structure itself cannot be
    allocated, the table of open files or the old header is forgotten.
28. C77: `compstrm_wrapper_finish` frees the compressed data when the header cannot be put before them,
    and `drpm_apply` frees them again.
29. C77: `write_page_block` 471-497 frees a node that is in the list already; `blocks_destroy` frees it
    again.
30. C77: `fillblock_prelink` 1144-1149 closes the descriptor and, when `prelink_open` fails, closes it
    again at the end.
31. C77: `compstrm_destroy` never ends the state of the compression library, so every failure between
    `compstrm_init` and `compstrm_finish` leaves it; `compstrm_init` with an unknown compression, a
    refused zstd parameter, a failing chunk or a failing end leave the structure, context or buffer.
32. C77: `drpm_apply` 571-577 returns with the output file open and the delta in memory when the delta
    is rpm-only or of a source package and there is no old package.

33. C76: `make_diff` 263-275 frees the hash although `hash_create` failed (a NULL pointer or a freed
    structure), and destroys a stream that was never assigned when the level of the add block is refused.
34. C76: `drpm_make` 419-424 loses the moved old archive when the second `realloc` fails, and frees the
    block that was there before; `fill_nodiff_deltarpm` 1028-1060 destroys an unassigned package when
    the sequence cannot be allocated; `rpm_read_archive` 205-222 leaves the old pointer when hashing
    fails after the buffer has moved.
35. C76: `drpm_make` forgets the new package of a standard delta until it is stored in the delta
    (drpm.c:395), the copied options when the version is refused (drpm.c:336), the collected sequence
    when the walk over the archive fails, and `write_deltarpm` returns early with its stream, header
    and buffer.
36. C79: `write_seqfile` (drpm_write.c:291-296) looks neither at the result of `fprintf` nor at that of
    `fclose`: `drpm_make` succeeds with an incomplete or empty sequence file when the disk is full.
37. C86: compression with gzip and bzip2 (drpm_compstrm.c:116, 148, 622, 648) does not look at the codes
    of the library; `finish_bzip2` loops for ever if `BZ2_bzCompress` fails.
38. C67: a package header without an immutable region (packages of rpm 3) is given one by
    `rpm_patch_payload_format` (drpm_rpm.c:705-721), so that a standard delta does not reproduce it.
39. C83: `fillblock_prelink` (drpm_block.c:1184) looks up `blocks_max[id]` for every block that a
    prelinked file reaches, also beyond the length of the old data that the delta states: a read past
    the end of the table.
40. C89: with the files in another order in the sequence than in the file list (see 10, C40), the
    file opened for an entry may be a symbolic link of the package: it is followed, and what is behind
    it gets into the output.
41. C98: `write(2)` takes at most 0x7ffff000 bytes on Linux. `write_deltarpm` (drpm_write.c:249-258),
    `drpm_apply` (drpm.c:644-727), `compstrm_write` (drpm_compstrm.c:538-591) and `rpm_write`
    (drpm_rpm.c:485-547, by `Fwrite`) give a whole piece to one call and take a short count for an
    error: larger deltas are never written, nor are larger packages from their identity deltas.
42. C99: `drpm_apply` creates the new package (drpm.c:545), emptying an existing file, before it reads the delta (549) and
    the old package (556). If the new package is given a name of either of them, the call fails and that file is
    lost (`C99_violated_old`, `C99_violated_delta`), so a package cannot be updated in place. `drpm_make` does not notice
    that the sequence file and the delta are the same file: it returns `DRPM_ERR_OK`, and the delta is gone
    (`C99_violated_make`). The same happens to an installed file over which the new package is written
    (`C99_violated_installed`).
43. C100: `fillblock_filesystem` finds that a file was changed by prelink and calls `fillblock_prelink`, which opens the
    file again (drpm_block.c:1048). If another process has restored the file in between, its size is the expected one and
    the first loop ends at 1054 without `prelinked` being set. If the file goes on after the block, the variable is read
    at 1190 (`C100_violated`).
44. C102: `drpm_check`, which is to tell "if the reconstruction is possible" (drpm.h:185), compares only the NEVR of an
    rpm-only delta with the installed package (drpm.c:817) and returns `DRPM_ERR_OK`; such a delta cannot be applied to
    installed files at all (drpm.c:571-574, `C102_violated`).
45. C103: lengths in a delta are given to `malloc` before anything is read (drpm_read.c:150, 230, 296, 322,
    398), so that a file of 16 bytes can ask for any size below 4 GiB and one of 228 bytes for 2^64 - 1
    bytes (`C103_violated`, `C103_violated_all`).

46. C104: the fixed-size fields at the beginning of a delta are read with one `read` each (drpm_read.c:48,
    67, 385, 401); a short read, which is no error, is reported as `DRPM_ERR_FORMAT` (`C104_violated`).

47. C105: `rpm_read` opens a package by name (drpm_rpm.c:288), and `rpm_read_archive` opens the name again (189). If
    the file is replaced in between, `drpm_make` reports success for a delta whose target is the header of one version with
    the payload of another (`C105_violated`).

48. C106: because of the first defect of C40, a delta that relies on the second and the fourth file of a package
    gives the new package with the package file and `DRPM_ERR_FORMAT`, with part of the output written, with the
    installed files (`C106_violated`; `drpm_apply` as a whole).

49. C87: for the same reason, `drpm_make` makes a delta for a package whose file list begins with a configuration file
    (which is left out), the full check accepts it, and `drpm_apply` with the installed files reads before the file list, although the
    package file gives the new package (`C87_violated`).

Further observations without a theorem: `headerReload` and `headerImport` may return NULL, which the
callers in drpm_rpm.c do not check (the model has `ub` there); `check_full` takes a failing `read` for the end of the file;
`close` and `Fclose` are never checked, so a write error reported only there (NFS, quota) goes unseen in
`drpm_make` and `drpm_apply` alike;
`check_prelink` with a recorded size of 0 uses an uninitialised length; `get_block` frees at most one
block in its cleanup loop; version-1 deltas record no payload level; `prelink_open` leaves its temporary
file behind when `fork` or `open` fails; an identity rpm-only delta reports the target's compression as
"none"; the target size is kept in 32 bits; when files and archive entries are numbered differently,
`fillblock_prelink` may read its variable `prelinked` before it is set (`plStop` is `ub` then);
`cleanup_count` in `get_block` is a static variable without synchronisation, a data race when two threads
apply deltas (C95 shows that its value does not matter).

## 6. Testing the theorems

`tools/mutate.py` copies the last commit to a scratch directory, applies one edit to the model the
way a bug would change the program, rebuilds, and records which theorems fail. Edits that survived
led to tighter theorems; the log names them (`tightened`).
