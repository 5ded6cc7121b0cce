# Formal model of keramics in Lean 4

## Layout

* `lean/Verif/Base/` outcome monad (`R`), byte helpers, integer decoding, list lemmas.
* `lean/Verif/Model/` executable model, one module per modelled part of the source; every definition cites file and lines in /repo.
* `lean/Verif/Spec/` small specifications written from the published format or algorithm, independent of the model.
* `lean/Verif/Lemmas/` helper lemmas.
* `lean/Verif/Props/` the property theorems (named `Cnn_...`) with non-vacuity examples beside them.
* `seeded/LOG.jsonl` wrong programs the theorems were tested against.

## Modelling conventions

* `u8` is `BitVec 8`. Word arithmetic that is bitwise or wrapping in the code (checksums, hashes) is on `BitVec 32/64`; lengths, offsets and parsed fields are `Nat` with an explicit check wherever the Rust expression could overflow, underflow, index out of bounds, unwrap `None` or reach `todo!()`.
* `R a` = `ok a | err | panic`. `err` is any returned `Err(ErrorTrace)` (messages are not modelled). `panic` is every panic of a debug build (overflow checks on), a stack overflow, and a loop that never ends. In a release build an overflow wraps instead; theorems that exclude `panic` therefore hold for both builds, witnesses that show `panic` are for builds with overflow checks.
* A `&mut self` method is a function returning the new state. Loops are structural recursion, folds, or recursion on explicit fuel with a theorem that the fuel suffices.
* `HashMap`/`HashSet`/`BTreeMap` are modelled by functions or association lists; iteration order is never used unless stated.
* An underlying `DataStream` is a byte list, plus a short-read oracle where the property quantifies over read schedules; I/O errors and lock poisoning are not modelled. A history ends with its first error.
* Where the code violates a property, the negation is proved of a concrete or general witness (`Cnn_violated...`), and what does hold is a theorem with the suffix `_partial`.
* Debug output (`Mediator`), locks/`Arc`, and error message texts are not modelled.

## Trusted base

* The kernel of Lean 4.33.0, and Mathlib modules imported one at a time.
* The axioms `propext`, `Classical.choice` and `Quot.sound` at most; the list per theorem is at the end. No axioms of our own, no `sorry`, no `native_decide`, no `bv_decide`.
* The reading of /repo that produced the model. Tables (code pages, case mappings, hash constants, opcode types) are transcribed by script or compared with an independent definition by proof.
* The specifications in `lean/Verif/Spec`.

## What is modelled

| Crate | Modelled | Not modelled |
| --- | --- | --- |
| keramics-checksums | adler32.rs, crc32.rs, reversed_crc32.rs | |
| keramics-hashes | md5.rs, sha1.rs, sha224.rs, sha256.rs, sha512.rs | |
| keramics-types | macros (integers), uuid.rs, ucs2_string.rs, utf16_string.rs, byte_string.rs | bytes_to macros of floating point types |
| keramics-encodings | base64.rs, utf8.rs, all single-byte code pages, windows932.rs | |
| keramics-datetime | all | |
| keramics-compression | adc.rs, lznt1.rs, lzvn.rs, huffman.rs, deflate.rs, zlib.rs, bzip2.rs, lzx.rs, lzfse.rs | lzxpress (declared in lib.rs, its source is not in the tree) |
| keramics-core | fake data stream, seek and read positions, hash of a stream, formatters.rs | errors, OS data stream |
| keramics-formats | block_tree(_node).rs, lru_cache.rs, scanner.rs, apm, gpt, mbr, sparseimage, sparsebundle, plist (XML, and the property lists of udif and sparsebundle), images with layers (qcow, vhd and vhdx image.rs, with the file resolver as a function), the file resolver of the operating system on Unix, qcow, vhd, vhdx (headers, region tables, metadata, parent locator, block allocation and sector bitmaps), udif (footer, block tables, reads), ewf (all sections, headers, hashes, tables, volume, chunks, segments), fat (boot record, allocation table, block stream, directory entries, file system, file entries, by path and by index), ntfs (boot record, MFT entries, attributes, attribute lists, master file table, file system, file entries, directory indexes, paths, data runs, fix-ups, block stream, compressed streams, streams of the Windows Overlay Filter), ext (superblock, features, group descriptors, inodes, inode extensions, extents, block numbers, directories, paths, file entries, block stream) | names and values of ext extended attributes, the file resolver for tests |
| keramics-sigscan | all but overflow of pattern offset sums | |
| keramics-vfs | paths, locations (and their text), the file resolver on Unix, the resolver of locations, context, finder, scanner, file entries of the operating system, symbolic link targets, data forks and data streams of file entries, file systems of volume systems and images | file entries of ext, fat and ntfs beyond their type, location, symbolic link target and data forks, file entries of the operating system for Windows |
| keramics-tools | display_path.rs, hash_tool.rs, export_tool.rs, writer.rs, bodyfile.rs, the bodyfile, hash and hierarchy commands of image_tool.rs, EWF segment extensions, info/{gpt,mbr,apm}.rs, print_hierarchy of info/{ext,ntfs,fat}.rs, formatters.rs | command line handling, other output formats |
| keramics-layout-map | `read_at_position` of the generated structures (reads exactly the size) | generated debug formatting |
| keramics-python | | all |

OS file access, Python bindings, command line parsing and log or debug output have no model: they have no semantics of their own beyond calls into the modelled parts, or depend on the operating system.

## Properties

For each property: how it is modelled and proved, the result, and what was found out about the code on the way. Theorem names are relative to `Keramics.Props`.

### C01 Adler-32 is chunking independent and correct

Approach: Model update with 5552-byte batching, wrapping 32-bit adds and the shift/subtract reduction on BitVec 32. Spec: RFC 1950 sums over Nat mod 65521. Proof: batch induction with no-wrap bound, then chunk induction.

Result: proved. Includes absence of overflow panics in the deferred modulo.

Theorems: `C01_adler32_chunked`.

### C02 MSB-first CRC-32 equals polynomial long division for every chunking

Approach: Model table construction and table-driven update on BitVec 32. Spec: bit-at-a-time register. Proof: XOR-linearity of the 8-step shift, then list induction.

Result: proved. Table-driven update equals the bit-serial division; reuse after finalize is part of the statement.

Theorems: `C02_crc32_chunked`.

### C03 Reflected CRC-32 equals the bitwise reflected definition for every chunking

Approach: As C02, reflected.

Result: proved. Spec is the MSB-first division on reversed polynomial, register and bytes.

Theorems: `C03_crc32_reflected_chunked`.

### C04 MD5 digest is independent of chunking and equals RFC 1321

Approach: Model block buffering, padding, transform. Spec: RFC padding + Merkle-Damgard fold with the RFC round functions. Proof: invariant "state = fold over consumed blocks, buffer = tail".

Result: proved. Sine table proved against floor(2^32 |sin i|) over the reals. Messages of 2^61 bytes and more overflow the 64-bit bit counter and are excluded.

Theorems: `C04_md5_chunked`.

### C05 SHA-1 digest is independent of chunking and equals FIPS 180-4

Approach: As C04 for SHA-1.

Result: proved. Messages below 2^61 bytes, the standard's own limit (2^64 bits).

Theorems: `C05_sha1_chunked`.

### C06 SHA-224 and SHA-256 digests are independent of chunking and equal FIPS 180-4

Approach: As C04 for SHA-224/256.

Result: proved. Constants proved to be the fractional bits of roots of primes. Messages below 2^61 bytes, the standard's own limit.

Theorems: `C06_sha224_chunked`, `C06_sha256_chunked`.

### C07 SHA-512 digest is independent of chunking and equals FIPS 180-4

Approach: As C04 for SHA-512.

Result: proved. Messages below 2^61 bytes: beyond that the code's 64-bit bit counter overflows (the standard allows 2^128 bits).

Theorems: `C07_sha512_chunked`.

### C08 In-memory data stream reads its data followed by zeros

Approach: Model read loop literally. The code does not advance its offset in the loop: prove the negation, and the partial theorem for len(D) = S or reads not crossing the data end.

Result: partial. False of the code for reads crossing the end of the data (witness); proved for declared size <= data length over all histories, and per read for all non-crossing reads.

Theorems: `C08_violated`, `C08_fake_stream_partial`, `C08_fake_stream_read_partial`.

Findings in the code: a read that crosses the end of the data repeats data from the start of the read (proved).

### C09 Windowed partition streams expose exactly their window

Approach: Model seek/read state machine over an arbitrary underlying byte oracle with short reads. Proof: invariant over op lists.

Result: proved. Windows must end below 2^64 and seek arguments stay in the i64 range; the underlying stream may read short at every call.

Theorems: `C09_window_stream`, `C09_file_range_stream`.

### C10 Sequential reads reproduce the stream for every buffer-size schedule

Approach: Generic reader abstraction with short-read oracle; induction over the schedule.

Result: proved. The unbounded loop is modelled with fuel; the theorem shows length+1 iterations suffice.

Theorems: `C10_sequential_reads`, `C10_read_count`, `C10_hasher`.

### C11 Block tree lookup returns exactly the inserted range

Approach: Model create_root_node, insert_value, get_value with panics explicit. Invariant that relates the tree to the list of accepted insertions; violations by witness.

Result: partial. Lookup and disjointness proved for every geometry and history of aligned insertions; false of the code for unaligned ranges (witness), and ranges that span two nodes panic (witness).

Theorems: `C11_lookup_partial`, `C11_flat_accepts`, `C11_uniform_accepts`, `C11_violated`, `C11_violated_spanning`.

Findings in the code: unaligned ranges are stored at the wrong place, ranges that span two nodes panic, and a first insertion of size 0 makes a branch the root.

### C12 Block cache is bounded and never returns a stale or foreign value

Approach: Model HashMap as association function and VecDeque as list; invariant over op lists.

Result: proved. Invariant over all histories of insert/get.

Theorems: `C12_cache`, `C12_most_recent`.

### C13 UUID text and byte forms round-trip

Approach: Model over List Char / 128-bit fields; round-trip proof.

Result: partial. Round trips and byte forms proved; 'accepts exactly' is false of the code for texts with '+' or braces, and some non-ASCII texts panic (witnesses). Rejection proved for ASCII texts without those.

Theorems: `C13_parse_text`, `C13_round_trip`, `C13_be_bytes`, `C13_le_bytes`, `C13_violated_accepts`, `C13_violated_panics`, `C13_rejects_partial`, `C13_nil_max`.

Findings in the code: a '+' in a part and braces in odd places are accepted, and text with non-ASCII characters at a part border panics (proved).

### C14 Fixed-width integers are decoded with the right byte order

Approach: Model shifts/ors; spec is positional value sum.

Result: proved. Includes the exact panic condition of the unsigned decoders.

Theorems: `C14_unsigned`, `C14_signed`.

### C15 UCS-2 and UTF-16 strings decode code units up to the terminator

Approach: Model loop over chunks; spec takeWhile.

Result: proved. Buffers of even length; an odd buffer without terminator panics in the code.

Theorems: `C15_decode_le`, `C15_decode_be`, `C15_round_trip`, `C15_byte_string`.

### C16 Case-insensitive UCS-2 comparison is a total order on case-folded strings

Approach: Model fold + lexicographic compare; order laws.

Result: proved. For every case mapping, hence for the built-in table.

Theorems: `C16_order`.

### C17 Base64 decoding inverts RFC 4648 encoding

Approach: Model character table and decoder loop; spec RFC 4648 encoder; round-trip by induction on groups of 3.

Result: proved. Standard alphabet, the only one the code has.

Theorems: `C17_decode_encode`, `C17_stream_skips_white_space`, `C17_no_panic`, `C17_decode_text`.

Findings in the code: padding can be missing altogether, what follows the padding and left-over bits are not looked at (proved).

### C18 UTF-8 decoding inverts UTF-8 encoding for every scalar value and never accepts ill-formed input

Approach: Model the decoder state machine; spec UTF-8 encoder; round trip by case analysis on ranges; negation witnesses for overlong/out of range.

Result: partial. Round trip proved. 'Ill-formed input is rejected' is false of the code for bytes 0xc0/0xc1 and values above U+10FFFF (witnesses); proved otherwise.

Theorems: `C18_decode_encode`, `C18_violated`, `C18_accepts_only_well_formed_partial`.

Findings in the code: the bytes c0 and c1 start overlong forms that are accepted, and code points above U+10FFFF are accepted (proved).

### C19 Single-byte code pages decode and encode consistently

Approach: Tables transcribed by script from /repo; complete table check by kernel decision lifted to all code points and strings.

Result: partial. Proved in full for 31 code pages; false of the code for ASCII, ISO-8859-2, ISO-8859-4, MacArabic and MacFarsi (witnesses), for which the rest of the property is proved.

Theorems: `C19_code_pages`, `C19_strings`, `C19_violated`, `C19_exceptional_pages_partial`.

Findings in the code: ASCII decodes bytes from 0x80 on; ISO-8859-2, ISO-8859-4, MacArabic and MacFarsi do not round-trip (proved).

### C20 Day counts convert to the right calendar date

Approach: Model the loop; spec: day number of a date by counting; proof or witness.

Result: partial. Proved from every 1 January epoch up to the end of 9999 and back one year. False of the code further back and from year 10000 on (witnesses).

Theorems: `C20_date_values_partial`, `C20_date_values_before_partial`, `C20_violated`, `dayNumber_injective`.

Findings in the code: dates more than a year before the epoch are wrong, and years from 10000 on panic (proved).

### C21 FILETIME and POSIX timestamps render the right date and time

Approach: Model field arithmetic on top of C20.

Result: partial. FILETIME up to the end of 9999, POSIX from 1969 on; outside that the code is wrong or panics (witnesses).

Theorems: `C21_filetime_partial`, `C21_posix32_partial`, `C21_posix64_partial`, `C21_violated`.

Findings in the code: as C20.

### C22 FAT date and time fields decode to their packed values

Approach: Model shifts/masks; exhaustive algebra over bit fields.

Result: proved. Every value of the packed fields, including the u16 arithmetic.

Theorems: `C22_fat_date`, `C22_fat_time_date`, `C22_fat_time_date_10ms`.

### C23 ADC decompression implements the ADC token semantics and stays in bounds

Approach: Model decompressor with panics explicit; spec token semantics; encode-decode theorem and no-panic theorem.

Result: proved. Every token list decodes to what it denotes; on arbitrary input no panic and a success is the decoding of some token list.

Theorems: `C23_adc_decode`, `C23_adc_sound`.

### C24 LZNT1 decompression implements the LZNT1 token semantics and stays in bounds

Approach: As C23.

Result: proved. Round trip for every list of well-formed blocks; no panic, no 16-bit overflow and no out-of-bounds access on arbitrary input.

Theorems: `C24_lznt1_decode`, `C24_lznt1_bounds`.

### C25 LZVN decompression implements the LZVN opcode semantics and stays in bounds

Approach: As C23.

Result: proved. The code accepts distance 0, which the format excludes: it then leaves the buffer bytes as they were.

Theorems: `C25_lzvn_decode`, `C25_lzvn_bounds`.

Findings in the code: a distance of 0 is accepted and leaves the bytes of the buffer.

### C26 Huffman decoding inverts canonical Huffman encoding

Approach: Model build/decode_symbol; spec canonical code assignment; decode proof from prefix property.

Result: proved. Trees are accepted exactly when the lengths form a non-empty code that is not over-subscribed; decoding inverts the canonical code.

Theorems: `C26_build`, `C26_decode`, `C26_sound`.

### C27 DEFLATE decoding implements RFC 1951 block semantics

Approach: Model bit stream and block decoding; spec token semantics.

Result: partial. Every stream of stored, fixed and dynamic blocks decodes to what it denotes, except dynamic blocks without distance codes, which RFC 1951 allows and the code refuses (witness). No panic on arbitrary input.

Theorems: `C27_deflate_decode_partial`, `C27_deflate_bounds`, `C27_violated_no_distances`.

Findings in the code: a dynamic block whose only distance code has zero bits is rejected (proved).

### C28 zlib containers with a wrong checksum are rejected

Approach: Model; the 4-byte trailer boundary is a violation: witness + partial.

Result: partial. False of the code when the stream ends with its checksum, the normal case, and the checksum covers the whole buffer (witnesses); proved when data follows and the buffer has the exact size.

Theorems: `C28_wrong_checksum_partial`, `C28_right_checksum`, `C28_bounds`, `C28_violated_last_four_bytes`, `C28_violated_larger_buffer`.

Findings in the code: the checksum is not verified if exactly 4 bytes remain, which is the normal case; it covers the whole buffer and not the decompressed size; FCHECK is not verified.

### C29 Reverse Burrows-Wheeler transform restores the original block

Approach: Model reverse transform; spec sorted rotations; LF-mapping proof.

Result: proved. Every block of at most 100000 stored bytes, any origin row (also with equal rotations), with the run lengths the reverse transform undoes. Also no panic for any data.

Theorems: `C29_reverse`, `C29_complete`, `C29_safe`.

### C30 FAT entries decode to their cluster number for all three widths

Approach: Model read_entry; spec packing; arithmetic proof.

Result: partial. Every entry of every table is read as the stored bits; out of bounds is an error. The value is the Microsoft value for 12 and 16 bits and for 32 bits with zero reserved bits; with reserved bits set the code is wrong (C30_violated).

Theorems: `C30_stored`, `C30_entry_partial`, `C30_bounds`, `C30_data`, `C30_violated`.

Findings in the code: FAT-32 entries are not masked to 28 bits (proved).

### C31 FAT file contents follow the cluster chain

Approach: Model open (visited set) and read; termination bound and content theorem.

Result: partial. Contents for every chain with the number of clusters the size asks for and numbers below 0xff0/0xfff0/0x0ffffff0; opening always ends; cyclic chains are errors. The code rejects longer chains and stops at valid clusters from 0xff0/0xfff0 on (both shown by counterexample).

Theorems: `C31_contents_partial`, `C31_open_total`, `C31_cyclic`, `C31_violated`, `C31_violated_long`.

Findings in the code: clusters from 0xff0 and 0xfff0 on end a chain (proved); chains longer than the size needs are rejected (proved); the upper 16 bits of the first cluster of FAT-32 are ignored (file_entry.rs:120-133).

### C32 VFAT long names are reassembled from their entries in the right order

Approach: Model directory scan; spec name splitter; round trip.

Result: partial. Every name of 1 to 255 units and every short name in every directory layout, with deleted entries, volume labels and the entries . and ..; looking up a name in any case finds the last file with it. Entries out of sequence and entries without a start are errors, except that a name whose first pieces are missing before the short entry is accepted as a shorter name (C32_violated_missing). Directories in several clusters are in C57.

Theorems: `C32_directory`, `C32_short_name`, `C32_names`, `C32_lookup`, `C32_out_of_sequence`, `C32_no_start`, `C32_violated_missing`.

Findings in the code: a name whose first pieces are missing is accepted (proved); the checksum of long name entries is not verified; stale long name entries attach to the next short entry; the terminator must be 32 zero bytes and only ends a cluster; a first byte 0x05 is not replaced by 0xe5; byte string lookups are not upper-cased.

### C33 NTFS data runs decode to the runs that were encoded

Approach: Model run decoder; spec encoder; round trip; witness for first-run sign handling if violated.

Result: proved. Every run list, every field width of 1 to 8 bytes, both ends of a list. Block numbers below 2^63.

Theorems: `C33_data_runs`.

Findings in the code: a distance that leaves the signed 64-bit range panics.

### C34 NTFS fix-up restores protected sector ends and detects torn writes

Approach: Model; protect/apply round trip; error cases.

Result: proved. The array lies in the first sector before its end, as the format requires.

Theorems: `C34_restore`, `C34_torn`, `C34_bounds`, `C34_total`.

Findings in the code: the bounds check asks for two bytes more than the array has.

### C35 NTFS attribute streams read runs, sparse ranges and the uninitialised tail correctly

Approach: Model stream; byte-level content theorem.

Result: proved. Every run list in any number of attribute groups whose runs lie inside the volume, every history of reads and seeks. Uncompressed attributes.

Theorems: `C35_contents`.

### C36 ext extent trees map every logical block exactly once

Approach: Model recursive reader with fuel = depth; partition theorem.

Result: proved. Extent trees of every depth (0-5) and shape; ranges partition the blocks and the stream reads the mapped contents for every sequence of reads and seeks. Side finding: a corrupt entry count panics.

Theorems: `C36_ranges`, `C36_contents`, `C36_terminates`, `C36_count_panics`.

Findings in the code: a corrupt entry count panics (proved).

### C37 ext indirect block maps resolve direct to triple indirect blocks

Approach: Model; pointwise block map theorem.

Result: proved. Every block map for block sizes that are a multiple of 4 up to 64 KiB; ranges and stream contents.

Theorems: `C37_ranges`, `C37_contents`, `C37_sound`.

### C38 QCOW reads return cluster data, zeros for unallocated, or the backing file

Approach: Model lazy tree fill and reads; witness for L1-unallocated with backing file; partial.

Result: partial. Every history is total and right for uncompressed images of versions 1-3 where every part of the media has a level 2 table, with or without a backing file; every successful history is right also with missing level 2 tables when there is no backing file. The code violates the property for level 1 entries without table (backing file ignored, read fails, history dependent), the zero flag of version 3, compressed clusters (panic) and a backing file smaller than the media; each is proved with a witness.

Theorems: `C38_open`, `C38_contents_partial`, `C38_sound_partial`, `C38_violated_backing`, `C38_violated_empty`, `C38_violated_history`, `C38_violated_compressed`, `C38_violated_zero_flag`, `C38_violated_cluster_bits`, `C38_violated_short_backing`.

Findings in the code: level 1 entries without table ignore the backing file, fail if their span is larger than the tree, or depend on the history; the zero flag of version 3 is ignored; compressed clusters reach todo!(); a short backing file gives a short read (all proved). 63 cluster bits panic; level 2 references are truncated to 32 bits.

### C39 VHD reads honour the block allocation table and sector bitmap

Approach: Model; witnesses (bit order, block counter); partial.

Result: partial. Proved: which disks are accepted; fixed disks; dynamic and differential disks whose blocks (a multiple of 2 MiB) are in the file as a whole or not at all, for every history; every successful history with mixed blocks whose bitmap bytes are the same in both bit orders. The full property is false of the code: bitmaps are read lowest bit first (C39_bit_order, C39_violated_bit_order), the first range can be empty which makes a one-block disk panic (C39_violated_panic), padding bits of small blocks overwrite following blocks (C39_violated_padding), and mixed blocks cannot be read after a whole block (C39_violated_history).

Theorems: `Vhd.C39_open`, `Vhd.C39_fixed`, `Vhd.C39_contents_partial`, `Vhd.C39_sound_partial`, `Vhd.C39_bit_order`, `Vhd.C39_violated_bit_order`, `Vhd.C39_violated_panic`, `Vhd.C39_violated_padding`, `Vhd.C39_violated_history`.

Findings in the code: bit order of the sector bitmap, panic of a one-block disk, padding bits of small blocks, and mixed blocks after whole blocks (all proved). Block sizes below 4096 give an empty bitmap, which panics; the block number counts ranges instead of blocks.

### C40 VHDX reads honour the block allocation table and sector bitmap

Approach: As C39.

Result: partial. Proved: which values are accepted; disks whose blocks are in the file as a whole or not at all, for every history; every successful history also with partially present blocks. The full property is false of the code: flags 0 (a disk of more than one chunk reads the wrong entries, C40_violated_chunks), flags 3 (parent ignored, C40_violated_flags), and blocks of a differential disk that are not present use a bitmap that need not exist (C40_violated_absent). The headers, region tables and metadata items are those of C70.

Theorems: `Vhdx.C40_open`, `Vhdx.C40_contents_partial`, `Vhdx.C40_sound_partial`, `Vhdx.C40_violated_chunks`, `Vhdx.C40_violated_absent`, `Vhdx.C40_violated_flags`.

Findings in the code: flags 0 with more than one chunk, flags 3, and absent blocks of differential disks (proved). A stored checksum of 0 is accepted; metadata tables with more than 2047 entries panic; the log is not replayed; only the first region table is used.

### C41 UDIF reads return the block ranges described by the block tables

Approach: Model table acceptance and reads.

Result: partial. Every accepted image reads as what its entries stand for, in order, under every history (no alignment or window hypothesis), if its entries can be decompressed and compressed entries at one place have one size; with different sizes the read panics (C41_violated_cache). Which images are accepted is settled for entries that fit in windows of 8 MiB; large entries are rejected or panic (C41_violated_large). The XML property list and the decompressors are parameters.

Theorems: `C41_open_partial`, `C41_contents_partial`, `C41_fork`, `C41_violated_cache`, `C41_violated_large`.

Findings in the code: the cache of decompressed blocks has only the data offset as key (proved); ranges of more than 8 MiB are rejected or panic (proved). The compressed size is truncated to 32 bits; sums of 2^55 sectors overflow; offsets of sparse entries are checked as well; the LZMA type is excluded; the property list is read with a plain read.

### C42 EWF reads return the chunk of the right segment

Approach: Model caches; witness for cache key without segment number; partial.

Result: partial. Every accepted image of at most 16 segments reads as its chunks, each as stored in its own segment file, under every history, if the chunks can be read and no compressed chunks of different segments share an offset. The full property is false of the code: with more than 16 segments the chunks of all but the last 16 cannot be read (C42_violated_segments, for every such image), and the cache of decompressed chunks ignores the segment (C42_violated_cache). zlib and the sections without chunks are parameters.

Theorems: `C42_contents_partial`, `C42_checked`, `C42_violated_segments`, `C42_violated_cache`.

Findings in the code: the cache of decompressed chunks ignores the segment (proved); more than 16 segments cannot be read (proved). Offsets that do not increase reach todo!(); a table footer beyond the section panics; the number of sectors is truncated to 32 bits; checksums of uncompressed chunks are not verified; table2 is not used.

### C43 Sparse disk images read bands at their mapped place

Approach: Model band table and reads.

Result: proved. Every file, every band table, any history. An image is accepted exactly if header and table are right. For a file that ends inside of a band the read goes on with wrong bytes (proved).

Theorems: `C43_open`, `C43_contents`, `C43_violated_truncated`.

Findings in the code: a file that ends inside of a band shifts the following bytes of a read (proved).

### C44 GPT partition tables are accepted only if consistent, and partitions are where the table says

Approach: Model header/entries acceptance using the C03 CRC model.

Result: partial. Holds except that a stored checksum of 0 is accepted unchecked (proved); the model also shows a panic for a backup sector number that is too large.

Theorems: `C44_accepted_partial`, `C44_window`, `C44_wellformed`, `C44_violated_zero_checksum`, `C44_backup_overflow_panics`.

Findings in the code: a stored checksum of 0 is accepted (proved); a large backup block number panics; the end of a partition is not checked against the area.

### C45 MBR logical partitions are located relative to their own extended boot record

Approach: Model; witness for offset base; partial.

Result: partial. Listing, cycles and termination are proved for every chain of at most 255 extended boot records; the location of logical partitions after the first extended boot record is wrong in the code (proved).

Theorems: `C45_listing_partial`, `C45_listing_primary`, `C45_window_partial`, `C45_cyclic`, `C45_total`, `C45_violated_location`.

Findings in the code: the offsets of logical partitions use the first extended boot record (proved); type 15 in an extended boot record is listed as a partition; an extended entry at sector 0 is ignored; more than 255 extended boot records are rejected.

### C46 APM partition listing matches the partition map

Approach: Model.

Result: proved. For every partition map.

Theorems: `C46_listing`, `C46_sound`, `C46_window`.

### C47 Signature scanning reports only real matches

Approach: Model the building of the scan trees, the skip tables, the scan of buffers and the format scanner. Soundness by induction on the tree and the rounds of a scan.

Result: partial. Proved for every scanner, data and sequence of buffers that hold the data. The format scanner breaks it for streams smaller than the footer range (witness), and panics on an empty stream.

Theorems: `C47_sound`, `C47_stream_partial`, `C47_violated_small`, `C47_empty_panics`.

Findings in the code: streams smaller than the footer range give false positives, and an empty stream panics (proved).

### C48 Signature scanning finds every matching offset-bound signature set member

Approach: Completeness: the path of a signature through the tree by induction over the building; witnesses for lost signatures.

Result: partial. Proved for every signature set that can be built, for a signature with a pattern of its own that lies in the first buffer. Violated for signatures that share a pattern, as those of MBR and GPT do (witness), and in later buffers; building overflows the stack for some sets.

Theorems: `C48_header_partial`, `C48_footer_partial`, `C48_stream_partial`, `C48_stream_footer_partial`, `C48_violated_mbr`, `C48_violated_second_buffer`, `C48_build_overflows`.

Findings in the code: signatures that share a pattern are dropped, those in a second buffer are missed, and building some sets overflows the stack (proved).

### C49 VFS paths: join, parent, file name and text form are consistent

Approach: Model the component lists and their text forms; laws by list induction; witnesses.

Result: partial. Join, parent and file name for every non-empty path of every kind; text round trips for all texts in the characters for which the code keeps them. Violated for empty paths, non-BMP characters in NTFS and FAT and backslashes in FAT and ext (proved).

Theorems: `C49_parent_partial`, `C49_parents_partial`, `C49_file_name`, `C49_string_text_partial`, `C49_string_path_partial`, `C49_ntfs_text_partial`, `C49_ntfs_path_partial`, `C49_fat_text_partial`, `C49_ext_text_partial`, `C49_violated_empty`, `C49_violated_empty_text`, `C49_violated_supplementary`.

Findings in the code: empty paths, characters outside the BMP in NTFS and FAT, and backslashes in FAT and ext (proved).

### C50 The VFS context opens a file system of the requested type for the requested location

Approach: Model cache with weak references; witness; partial.

Result: partial. Any history of opens and drops. The source is always right; type and chain of parents are right when a place is opened with one type only. The cache ignores the type (violation proved).

Theorems: `C50_source`, `C50_partial`, `C50_violated`.

Findings in the code: the cache key ignores the type (proved).

### C51 Escaped display strings are unambiguous and safe to show

Approach: Model table + escape; prefix-code injectivity.

Result: partial. Unambiguity for every pair of strings, of every kind of string; safety and what is kept for every string. Missing: U+FDE0 to U+FDEF are not escaped.

Theorems: `C51_text`, `C51_ucs2`, `C51_code_points`, `C51_utf8`, `C51_kinds`, `C51_kept`, `C51_safe_partial`, `C51_violated_noncharacter`.

Findings in the code: the noncharacters U+FDE0 to U+FDEF are not escaped, the other noncharacters are (proved).

### C52 Bodyfile timestamps denote the instant

Approach: Model; witness for (-1,0); partial.

Result: partial. Exact for every FILETIME except those in the last second before 1970, for which the code loses the sign (proved for each of them), for every POSIX time in seconds, and for every one in nanoseconds except those before 1970 that are no whole second, for which it is wrong (proved for each of them).

Theorems: `C52_filetime_partial`, `C52_posix`, `C52_posix_nanoseconds_partial`, `C52_violated_sign`, `C52_violated_nanoseconds`.

Findings in the code: the sign of a FILETIME is lost in the last second before 1970, and the fraction of a POSIX time before 1970 counts in the wrong direction (proved).

### C53 EWF segment file extensions are distinct and ordered

Approach: Model; injectivity and order.

Result: proved. For every segment number and schema.

Theorems: `C53_extension`, `C53_distinct`, `C53_count`.

### C54 bzip2 decompression restores what was compressed

Approach: Model the bit stream, the headers, the tables, the trees, the block data and the loop over blocks; the reverse transform is that of C29, canonical codes those of C26. Specification: how a stream is written. Refinement: the reader is at a list of remaining bits, every part is read off the front. Existence of a stream for all data; violations by theorem and witness.

Result: partial. Every stream of one block of at most 100000 stored bytes with code lengths up to 19 is restored, and every non-empty data of that size has such streams at every level. The full property is false of the code: streams of two blocks (combined checksum compared with the CRC of all bytes), blocks of more than 100000 bytes (levels 2 to 9) and codes of 20 bits are rejected; over-subscribed codes and run lengths of 64 digits panic. Missing: which other malformed data panics.

Theorems: `C54_blocks_partial`, `C54_one_block_partial`, `C54_every_data_partial`, `C54_header_partial`, `C54_no_block`, `C54_violated_blocks`, `C54_violated_level`, `C54_level_exists`, `C54_violated_code_length`, `C54_code_length_exists`, `C54_violated_over_subscribed`, `C54_violated_run_length`.

Findings in the code: two or more blocks, blocks of more than 100000 bytes and codes of 20 bits are rejected; over-subscribed codes and run lengths of 64 digits panic (proved). A code length that is decremented below 0 panics; the randomised flag and the checksums of blocks are not looked at.

### C55 A sparse bundle reads as its bands

Approach: Model the checks of the property list values and the loop over bands with the files as a function of their path; refinement to the bytes of the bands via the block stream lemmas. Violations by general theorems.

Result: partial. Which property lists are accepted, and every history on bundles that store every byte. The full property is false of the code: bands that are not stored are errors (C55_violated_missing), and a read of a short band goes on with the next (C55_violated_short). The parser of the property list is a parameter.

Theorems: `C55_open`, `C55_contents_partial`, `C55_violated_missing`, `C55_violated_short`.

Findings in the code: a band that is not stored is an error, and the rest of a short band is not zeros but the next band (proved).

### C56 FAT volume layout

Approach: Model the boot records and the metadata; the specification computes the layout from the fields after the Microsoft specification.

Result: partial. Missing: volumes whose number of clusters crosses a boundary only with the sectors of the root directory, of which C56_violated_format shows that the code takes one for another format. That the table has entries for the last two clusters is false (C56_violated_last).

Theorems: `C56_layout_partial`, `C56_format_partial`, `C56_label`, `C56_violated_format`, `C56_violated_last`, `C56_violated_panic`, `C56_violated_label`.

Findings in the code: the root directory is counted among the clusters, so a volume close to a boundary is taken for the next format (proved); the last two clusters of FAT-32 volumes cannot be read (proved); more reserved sectors than sectors panics (proved); a volume label of the root directory loses the spaces between its first 8 and last 3 characters (proved).

### C57 FAT path lookup and file contents

Approach: Model directories over chains of clusters and the walk along a path; the specification defines directories, paths and contents on the bytes of the volume. Names across cluster boundaries included.

Result: partial. Missing: clusters the code cannot reach (C56_violated_last, C30_violated, C31_violated) and files that start at cluster 65536 or later, of which C57_violated_start shows that the code looks elsewhere. Names are UCS-2 strings. Directories end with zeros.

Theorems: `C57_path_partial`, `C57_violated_start`.

Findings in the code: the upper 16 bits of the first cluster of FAT-32 files are ignored (proved).

### C58 ext volumes and inodes

Approach: Model superblock, features, group descriptors (with copies, sparse and meta groups), inode table over the block tree, inodes with extension and attributes; the specification reads the fields from the bytes after the on-disk format. Sound volumes by refinement, refusals for all streams.

Result: partial. C58_inode_partial covers all block sizes, inode sizes, numbers of groups and feature combinations within the structure Handled (volume) and FileHandled (inode), which list what the code cannot do. C58_refused and C58_checked_partial say what is never accepted. Missing: what the restrictions exclude, of which four are shown to be violations; names and values of extended attributes.

Theorems: `C58_inode_partial`, `C58_device_partial`, `C58_refused`, `C58_checked_partial`, `C58_violated_groups`, `C58_violated_revision`, `C58_violated_size`, `C58_violated_times`.

Findings in the code: the number of groups ignores the first data block, so that volumes with 1 KiB blocks and a full last group cannot be opened (proved); revision 0 volumes panic (proved); sizes over 4 GiB without ext4 features lose their upper part (proved); creation times after 2038 and times before 1970 count as not set (proved); the stored checksum seed is ignored; an error in any copy of the group descriptors makes opening fail; flex group exponents of 16 or more, descriptors of more than 64 bytes and certain attribute name indexes are rejected.

### C59 ext directories, paths and contents

Approach: Model directory trees, file entries, paths, data streams and link targets on top of C58, C36 and C37; the specification defines directories, paths and contents on the bytes of the volume.

Result: partial. Within the restrictions of Handled and FileHandled: listing (sorted, complete, by index and name), path lookup, contents of inline, extent and block number files, link targets. Missing: directories with blocks that are not stored (C59_violated_sparse), inline data over 60 bytes, extents beyond the size, links with bytes after the target (C59_violated_link). Names are bytes (UTF-8).

Theorems: `C59_directory_partial`, `C59_path_partial`, `C59_contents_partial`, `C59_link_partial`, `C59_refused`, `C59_violated_link`, `C59_violated_sparse`.

Findings in the code: entries after a directory block that is not stored are lost (proved); the target of a short symbolic link is not cut at its size (proved); inline files over 60 bytes read repeated bytes instead of the rest (C08); extents beyond the end of the file make the stream fail to open.

### C60 Format recognition reports exactly the formats of a stream

Approach: Model the tables of built-in signatures and the mapping of identifiers to formats on top of the model of C47 and C48; specify the bytes of every format as text and place. Soundness for every set from C47; completeness from C48; for the set of storage media images the bytes exclude each other at the start and at the end, which gives an equivalence for every stream, with a proof that the scan does not fail.

Result: partial. For storage media images an equivalence for every stream of at least 520 bytes. In general sound for every set and every stream of at least 520 bytes; complete for the only format of a stream, except partition tables. False of the code otherwise (witnesses).

Theorems: `C60_sound_partial`, `C60_complete_partial`, `C60_images_partial`, `C60_violated_sectors`, `C60_violated_several`, `C60_violated_small`.

Findings in the code: partition tables of disks with sectors of other than 512 bytes are not recognized, of several file systems in one stream only one is, and streams smaller than the footer range give false positives (proved).

### C61 NTFS volumes are opened as they are on disk

Approach: Boot sector, MFT entries with fix-ups, attributes, the MFT and $UpCase, $Volume are modelled (Model/NtfsVolume); the specification gives the on-disk format as predicates on the bytes (Spec/NtfsFileSystem). Acceptance of the boot sector is an equivalence; opening is proved by following the reader over the predicates.

Result: partial. C61_boot is complete. C61_volume_partial asks, of an MFT with an attribute list, that the records in the list describe its runs in the order of their numbers; C61_violated_exponent shows the crash.

Theorems: `C61_boot`, `C61_violated_exponent`, `C61_volume_partial`.

Findings in the code: The exponent 32 (byte 224) for the size of MFT entries or index records passes the check and overflows a shift: a crash where overflow is checked.

### C62 NTFS files have the attributes, times, links and streams of their records

Approach: Attribute parsing, merging, lists and file entries are modelled; an invariant relates the kept attributes to the list of attributes in the specification and is proved to be kept by every added attribute. Streams go back to C08 and C35.

Result: partial. Compressed streams are in C64. Missing: streams of the Windows Overlay Filter, attribute lists larger than a cluster. C62_violated_allocated, C62_violated_empty, C62_violated_bad and C62_violated_endless show where the code differs.

Theorems: `C62_entry_partial`, `C62_violated_allocated`, `C62_violated_endless`, `C62_signature_partial`, `C62_violated_empty`, `C62_violated_bad`, `C62_times_partial`, `C62_link_partial`, `C62_forks_partial`, `C62_streams_partial`.

Findings in the code: The in-use flag of a record is ignored, so deleted files are reported as allocated. An attribute of size 0, or an attribute list entry of size 0, is read for ever. An attribute list in several clusters is parsed cluster by cluster. A record that was never used (zeros) or is marked as bad is refused instead of being reported as empty or bad, because its attributes are read from its first byte. The data of junctions is never read.

### C63 NTFS directories and paths lead to the right files

Approach: Index nodes, records and the recursive search and listing are modelled (Model/NtfsIndex). The specification defines the entries of a tree by an inductive predicate; search is proved by induction on depth from the order of the entries, listing by the same induction.

Result: partial. Restricted to index records not smaller than clusters, each in one run, and of at most 65535 bytes.

Theorems: `C63_lookup_partial`, `C63_list_partial`, `C63_file_partial`, `C63_path_partial`.

Findings in the code: Virtual cluster numbers are multiplied by the cluster size even where clusters are larger than index records (512-byte units). An index record in two runs is an error. A value smaller than its key, or a file name of one character that is a zero, crashes. An index with a cycle is searched without end. Short names are never attached to entries. The sequence number in a reference is not checked.

### C64 Compressed NTFS streams read as the uncompressed data

Approach: The gathering of compression ranges from data runs, the block tree and the cache are modelled (Model/NtfsVolume). An invariant of the gathering loop says that the ranges cover the units so far, each either one unit or several that are stored as they are; decompression is C24; reads are by the stream theorems, with a condition on reads (Spec/StreamIf).

Result: partial. C64_contents_partial: every sequence of reads that succeeds gives the right bytes up to the valid data size. C64_reads_partial: reads that start at a unit, stay in a unit or start in a unit that is not compressed succeed. Other reads crash: C64_violated_read. The size is wrong where it is larger than the valid size: C64_violated_size.

Theorems: `C64_contents_partial`, `C64_reads_partial`, `C64_violated_read`, `C64_violated_size`.

Findings in the code: A read that starts inside of a compressed unit and goes on beyond it takes a slice beyond the end of the decompressed unit: a crash. The stream ends at the valid data size, not at the data size, so the zeros at the end of the file are missing.

### C65 LZX decompression inverts the format

Approach: The format is a list of blocks with its bits and its meaning (Spec/Lzx); the decoder is modelled function by function (Model/Lzx). An invariant relates the bit stream to the bits that are left; each reader is shown to take exactly the bits of its part, and the block loop by induction over the blocks. For arbitrary input every function keeps the bounds, and a block that succeeds reads at least one word, so the loop ends.

Result: partial. C65_lzx_decode_partial excludes the five cases of the C65_violated theorems; everything else of the format is included. C65_lzx_bounds holds for all input.

Theorems: `C65_lzx_decode_partial`, `C65_lzx_bounds`, `C65_violated_empty_lengths`, `C65_violated_short`, `C65_violated_calls`, `C65_violated_padding`, `C65_violated_odd`, `C65_type`, `C65_recent`.

Findings in the code: A block without any length code (no match longer than 8 bytes) is refused. An uncompressed block whose header ends on a word boundary has 16 bits of padding that are not skipped: wrong bytes. The byte after an uncompressed block of odd size is not skipped: the blocks after it are wrong. Call instructions between the last 10 and the last 6 bytes are changed although encoders leave them alone. Output of less than 6 bytes is refused.

### C66 LZFSE decompression inverts the format

Approach: The format is described as an encoder writes it (Spec/Lzfse): a state for a symbol in front of a state and the bits shifted out. The decoder tables are shown to invert the states of every frequency table; an invariant relates the backward bit reader to the bits that are left, and literals, steps and blocks follow by induction. For arbitrary input each step keeps the bounds.

Result: partial. C66_lzfse_decode_partial excludes version 1 blocks, coded blocks with less than 4 bytes of data and buffers of 2 GiB or more, and LZVN blocks do not refer to earlier blocks; C66_lzfse_bounds_partial speaks of calls that return a result. The C66_violated theorems show why.

Theorems: `C66_lzfse_decode_partial`, `C66_lzfse_bounds_partial`, `C66_violated_small`, `C66_violated_large`, `C66_violated_v1`, `C66_violated_distance`, `C66_violated_size`, `C66_violated_truncated`, `C66_violated_endless`, `C66_marker`.

Findings in the code: The frequency table of a version 1 block is read from offset 42 of the stream, wherever the block is, and decompression continues at offset 762: such blocks are refused, panic, or make the call endless. A version 2 block with a frequency table that is too short panics (subtraction below zero). Coded blocks with less than 4 bytes of data at the end of the stream are refused. With 2 GiB or more of room every step is refused. A block that repeats a distance before there is one, or an LZVN block that gives fewer bytes than its size, returns what the buffer held before. Also seen in the code: a header without a table keeps the frequencies of the block before; sums of version 1 frequencies can overflow; LZVN blocks cannot refer to earlier blocks.

### C67 The finder gives every file entry once

Approach: A file system is the root, the number of sub file entries, names and sub file entries by index. By mutual induction over trees and forests the stack machine of next produces the list of the specification and returns to the stack it began with.

Result: partial. C67_every_entry_once is the full claim for file entries that form a tree; C67_violated_cycle shows that a search does not end if they do not.

Theorems: `C67_every_entry_once`, `C67_no_root`, `C67_violated_cycle`.

Findings in the code: A directory that is reached again below itself (possible in damaged ext, FAT and NTFS file systems, whose directories refer to inodes, clusters and MFT entries by number) makes the finder descend for ever and its stack grow without bound: next does not return.

### C68 Partitions and layers are shown as files under the root

Approach: Decimal numbers are specified by their digits; parsing is shown to invert writing for every number, and paths are split into components. The partitions are those of C44 to C46.

Result: partial. C68_listed, C68_root and C68_exists are the claim for the names of the entries; that other paths give nothing holds only up to a plus sign and leading zeros of the number (C68_found_partial, C68_violated_alias).

Theorems: `C68_listed`, `C68_root`, `C68_found_partial`, `C68_violated_alias`, `C68_other_paths`, `C68_exists`, `C68_apm`.

Findings in the code: A path with a plus sign or leading zeros in the number ("/gpt+2", "/gpt02") gives the partition or layer although no entry has that name.

### C69 Scanning a file gives the tree of what it holds

Approach: What a format scanner finds in a stream (C60), and what images and volume systems give when opened (C38 to C46), is an interface; the file systems of images and volume systems are those of C68. A content type describes what a file holds and the nodes that are expected; the scan of every content is computed by cases and induction over the partitions.

Result: partial. C69_scan_partial is the claim for EWF, QCOW, VHD and VHDX images and for raw disks whose partitions all can be recognised or hold nothing that is known. The cache of file systems is left out (C50).

Theorems: `C69_scan_partial`, `C69_violated_image`, `C69_violated_partition`, `C69_refused`.

Findings in the code: Sparse images and UDIF images are recognised and opened, but scanning them always fails with an error: scan_for_format does not support locations of these types. One partition in which two file systems are recognised makes the scan of the whole disk fail.

### C70 Opening a VHDX file gives the disk that its headers and metadata describe

Approach: Good files are specified by what [MS-VHDX] requires at which offsets. Every reader is shown to succeed exactly on good structures with the values of the specification; the disk then is that of C40, so that the theorem goes from the bytes of the file to the bytes of the media.

Result: partial. C70_open_partial: a file is opened if and only if it is good, both copies included, and with its values; for at most 2047 items and even texts.

Theorems: `C70_open_partial`, `C70_contents_partial`, `C70_parent_file_name`, `C70_violated_header`, `C70_violated_regions`, `C70_violated_items`, `C70_violated_text`, `C70_violated_checksum`, `C70_violated_log`, `C70_violated_kind`.

Findings in the code: A file of which one copy of the header or of the region table is damaged is refused although the other is good. A metadata table that tells of more than 2047 items, and a text with an odd number of bytes in the parent locator, make opening panic. A stored checksum of 0 is never compared. The log is ignored. Fixed and dynamic disks are mixed up.

### C71 Parsing an XML property list gives the object that the text describes

Approach: The rules of the grammar are modelled as parsing expressions. The specification is a relation between texts and objects by the productions of the XML recommendation, without an order of alternatives. Every rule is shown to give only texts of the specification (soundness, by induction on the nesting) and to take all of them whatever comes after (completeness), so that the parser decides the relation.

Result: partial. C71_parse: the parser returns an object if and only if the text describes it, for all texts. C71_no_panic_partial: no panic if no date element starts in the text. Exhaustion of the stack on deep nesting is not modelled; the conversion of floating-point texts is a parameter.

Theorems: `C71_parse`, `C71_one_object`, `C71_no_panic_partial`, `C71_get`, `C71_violated_dates`, `C71_violated_markup_in_strings`, `C71_violated_integers`, `C71_violated_comments`, `C71_violated_refused`, `C71_violated_several`.

Findings in the code: A date makes the parser panic (`todo!()`). References such as `&amp;`, CDATA sections, comments and processing instructions in a string or between objects make the property list be refused, as do empty elements such as `<string/>` and `<array/>`, the document type `-//Apple Computer//DTD PLIST 1.0//EN`, a style sheet, and white space around an integer. Of several objects in the plist element the last wins, text between objects is ignored, and characters after base64 padding are ignored.

### C72 The property lists in disk images decide how the images are opened and read

Approach: The decoding of the bytes as UTF-8, the look-up of the keys and the choice of the decompressor are modelled on top of the models of the parser (C71) and of the readers (C41, C55, C23, C28, C54, C66). The theorems of these are composed, so that no parameter is left but the floating-point conversion.

Result: partial. C72_bundle and C72_udif_tables are exact. The partial theorems inherit the limits of the parser, readers and decompressors they compose.

Theorems: `C72_udif_tables`, `C72_udif_no_panic_partial`, `C72_udif_open_partial`, `C72_decompress_partial`, `C72_udif_contents_partial`, `C72_bundle`, `C72_bundle_no_panic_partial`, `C72_bundle_contents_partial`.

Findings in the code: As in C71, a date in the property list makes opening the image panic, and white space around an integer or an entity in a string makes it be refused. A property list of more than 65536 bytes is refused.

### C73 Windows 932 text survives encoding and decoding

Approach: Both coders with their tables, copied by script as numbers. The kernel evaluates the tests of all bytes, all pairs of bytes and all code points of the arms of the encoder; these complete finite checks are lifted to all code points and then by induction to all strings.

Result: partial. Everything holds but that the same bytes are written again for characters with two codes; C73_bytes_partial says exactly for which strings they are.

Theorems: `C73_points`, `C73_strings`, `C73_bytes_partial`, `C73_violated`, `C73_no_panic`, `C73_refused`, `C73_ascii`, `C73_alphabets`.

Findings in the code: Characters with two codes (nine in row 0x87, one in row 0xee, all of rows 0xfa to 0xfc) are not written back as they were read: `C73_violated`. The rows 0xf0 to 0xf9 are refused, which Windows maps to the private use area.

### C74 Files compressed by the Windows Overlay Filter read as their contents

Approach: The whole stream with its cache, on top of the model of the volume. The LZXPRESS Huffman decompressor, whose source is not in the tree, is a parameter; for LZX the theorem uses the model of C65, with buffers that are larger than the data. Invariant of the cache: what is kept for an offset begins with the unit that is stored there.

Result: partial. Missing: files with a valid data size below their size, tables of blocks that are not in order, LZX data that C65 excludes; LZXPRESS Huffman is a parameter.

Theorems: `C74_contents_partial`, `C74_lzx_partial`, `C74_refused`, `C74_violated_decreasing`, `C74_violated_valid`.

Findings in the code: If a block ends before it starts, reads in its unit panic (u64 underflow, wof_compressed_stream.rs:157): `C74_violated_decreasing`. The size of the stream is the valid data size of the unnamed stream, not its size: `C74_violated_valid`. By inspection: two blocks at the same offset share an entry of the cache, so what is read depends on what was read before; and after an error in the table of blocks the offsets read so far are kept and the next read uses them.

### C75 EWF images say what was recorded about the acquisition

Approach: All section types, on top of the sections and chunks of C42 and the zlib decompressor of C28. Every accepted image is a chain of effects, one for each section; the values are a fold of it. For the text of a header: lines and columns are split where the specification joined them.

Result: partial. Missing: notes and empty dates of UTF-16 headers, headers compressed to less than a quarter, and what C42 excludes.

Theorems: `C75_values_partial`, `C75_hashes`, `C75_volume`, `C75_accepted`, `C75_contents_partial`, `C75_violated_notes`, `C75_violated_date`, `C75_violated_ratio`, `C75_violated_error2`, `C75_violated_entries`.

Findings in the code: Notes of a "header2" are looked for under the tag "w" instead of "t" (header2.rs:181-182): `C75_violated_notes`. Dates of a "header2" after 2038-01-19 make opening panic (i32 overflow, object_storage.rs:127-140), empty ones are read as 1970-01-01: `C75_violated_date`. An image is refused if the text of a header is more than four times as long as its compressed data (header.rs, header2.rs): `C75_violated_ratio`. Sections "error2" are never read, because the constant is "errors2" (constants.rs:39-41): `C75_violated_error2`; those with the name "errors2" and a number of entries that is too large make opening panic: `C75_violated_entries`.

### C76 The hash tool lists the digest of every data stream

Approach: The tool on top of the scanner of C69, the finder of C67, the hasher of C10 and the escaping of C51; volumes and data streams are arbitrary. What is printed before a failure stays printed. The items of the listing are specified from the volumes of the file and the trees in them.

Result: partial. Missing: file entries that cannot be opened end the listing, names that are not valid UTF-8 make the tool panic. Paths with identifiers instead of numbers of partitions are not covered.

Theorems: `C76_listing_partial`, `C76_file`, `C76_unambiguous`, `C76_unambiguous_partitions`, `C76_one_line`, `C76_violated_lost`, `C76_violated_name`.

Findings in the code: Although the tool is not to stop on errors, a file entry that cannot be opened ends the listing (hash_tool.rs:273-297): `C76_violated_lost`. A name that is not valid UTF-8 (ext), on the path to a file entry, makes the tool panic with `todo!()` (display_path.rs:57-103): `C76_violated_name`. The data streams `$Bad` that are not read are not only those of `/$BadClus` but also those of file entries below it.

### C77 The export tool writes the data stream that was asked for

Approach: The tool on top of the scanner of C69, with an arbitrary lookup of data streams and an operating system that may write less than it was asked to. What was written before a failure stays written. The loop keeps: what was written is what was read.

Result: partial. Missing: with more than one volume that has the path only one data stream is kept; short writes fail.

Theorems: `C77_export_partial`, `C77_unreadable`, `C77_nothing`, `C77_violated_overwrite`, `C77_violated_short`.

Findings in the code: Every data stream is written to the same file `keramics.bin` (writer.rs:45-46): with two volumes that have the path only the second data stream is kept, although two are counted: `C77_violated_overwrite`. A write that comes short is an error and leaves a part of the data stream (writer.rs:74-89): `C77_violated_short`.

### C78 The bodyfile lists every file entry in lines that can be read

Approach: The walk through the scanned nodes is that of C76, with the lines of a file entry of the image tool. A separate reader of lines splits them at vertical bars. The texts of all fields leave the reader in the field it is in.

Result: partial. Missing: what cannot be read or has an unsupported time ends the listing; targets of symbolic links are not escaped.

Theorems: `C78_rows_partial`, `C78_fields`, `C78_violated_fat`, `C78_violated_link`, `C78_violated_name`, `C76_unambiguous`, `C76_unambiguous_partitions`, `C76_one_line`.

Findings in the code: Times of FAT file entries are of kinds that `format_as_timestamp` refuses (bodyfile.rs:83, short_name_directory_entry.rs:120-122): the bodyfile of a FAT volume ends at the first file, and volumes behind it are not listed: `C78_violated_fat`. The target of a symbolic link is not escaped (image_tool.rs:596-600): a vertical bar in it gives a line of twelve fields, a line feed another line: `C78_violated_link`. The line of a $FILE_NAME attribute has the same path as that of a file whose name ends with " ($FILE_NAME)": `C78_violated_name`.

### C79 The hash command reports the MD5 of the media of an image

Approach: The scan of the formats is that of C60, the media that of C41, C43 and C75, the hash that of C04 and the loop that of C76.

Result: partial. Missing: QCOW, VHD and VHDX panic; for the others the conditions under which the media are what the image stands for, of C41, C43 and C75, and media below 2 EiB.

Theorems: `C79_sparseimage_partial`, `C79_udif_partial`, `C79_udif_fork`, `C79_ewf_partial`, `C79_refused`, `C79_compare`, `C79_violated_layers`.

Findings in the code: The sizes and the reads of QCOW, VHD and VHDX images are `todo!()` in the tool (image_tool.rs:139-148, 367-390): the hash command panics for every such image that can be opened: `C79_violated_layers`.

### C80 The info tool lists the partitions of a volume system as they are

Approach: The tables are those of C44, C45 and C46; the text of the lines is compared to a specification of each line. The rounding in double precision is modelled exactly.

Result: partial. Missing: sizes of 1 EiB and more, logical partitions, the guess of the bytes per sector, names that are no UTF-8 or have line feeds. The scan of the format before and the printing of other formats are not modelled.

Theorems: `C80_size_partial`, `C80_gpt_partial`, `C80_types`, `C80_mbr_partial`, `C80_apm_partial`, `C80_violated_large`, `C80_violated_logical`, `C80_violated_sectors`, `C80_violated_name`.

Findings in the code: For a size of 1 EiB or more the next factor is 2^70 and the multiplication overflows (formatters.rs:24): the tool panics (and without overflow checks the factor is 0 and the loop goes on until it indexes past the units), and partitions after it are not listed: `C80_violated_large`. A name in an Apple partition map that is no UTF-8 panics in the same way, and one with a line feed is printed with it: `C80_violated_name`. A disk whose partitions end in the first eighth is listed with sectors of 4096 bytes: `C80_violated_sectors`. The second logical partition is listed at a wrong offset, cf. C45: `C80_violated_logical`.

### C81 The info tool lists every file of a file system

Approach: The directories are those of C59, C63 and C82. The specification says which paths are below a file, by recursion over the depth of the tree; the output is proved by induction over the depth, for every stack that is at least as deep. That the paths are all those that can be opened, each once, is proved too (`C81_paths`).

Result: partial. Missing: names that are no UTF-8 or have line feeds or surrogates, files of NTFS without data streams, FAT files with the same name but for case, trees with entries that lead back.

Theorems: `C81_ext_partial`, `C81_paths`, `C81_ntfs_partial`, `C81_fat_partial`, `C81_violated_stream`, `C81_violated_name`, `C81_violated_feed`, `C81_violated_endless`.

Findings in the code: NTFS files without data streams (directories, the root directory, links) are not listed, as lines are only printed for data streams: `C81_violated_stream`. A name that is not UTF-8 panics: `C81_violated_name`. A line feed in a name is printed as it is: `C81_violated_feed`. An entry that leads back to a directory above it is followed until the stack is used up: `C81_violated_endless`.

### C82 The files of a FAT directory can be listed

Approach: The directories are those of C57. The entries of a directory are kept with distinct keys that are folded names; putting them in the order of their keys keeps them all. The specification says what a listing is: sorted by folded name, and exactly the files that are found by their own name.

Result: partial. Missing: files with the same name but for case, and the limits of C57 (clusters out of reach, reserved bits).

Theorems: `C82_listing_partial`, `C82_violated_case`.

Findings in the code: Of two files with names that differ only in case, only the last is there: `C82_violated_case`.

### C83 Debug output shows all data

Approach: The two loops are modelled with all variables. An invariant over whole lines (which line was shown last, and that the lines since are the same) and one over the bytes of a line give the text, which the specification states line by line.

Result: partial. Missing: data with a last line of one byte, lists without values or of more than 16 that are not a multiple of 16 (all violated).

Theorems: `C83_hexdump_partial`, `C83_list_partial`, `C83_violated_one`, `C83_violated_twice`, `C83_violated_empty`.

Findings in the code: A last line of one byte has no character column and no end of its own, as the index of the column is 0 then: `C83_violated_one`. More than 16 values that are not a multiple of 16 are printed with some values twice: `C83_violated_twice`. A list without values panics: `C83_violated_empty`.

### C84 The image tool prints the hierarchy of an image

Approach: The print of the tree of scan nodes is modelled on top of the scanner of C69, with the opening of ext, FAT and NTFS file systems as a function that can fail. The lines are stated from what the file holds and proved along the tree.

Result: partial. Missing: files that C69 leaves out; file systems that are recognised and cannot be opened, and the aliases (both violated).

Theorems: `C84_hierarchy_partial`, `C84_path`, `C84_violated_alias`, `C84_violated_open`.

Findings in the code: The alias "/gpt{...}" that is printed for a GPT partition leads to no file entry: the file system of a GPT only knows decimal numbers (`C84_violated_alias`). A file system that is recognised but cannot be opened ends the output at the line above it, and the partitions behind it are not printed (`C84_violated_open`).

### C85 File entries of the operating system have the type and times of the file

Approach: open is modelled with the metadata that the standard library gives. The specification gives the types of POSIX modes and the value of a time.

Result: partial. Missing: sockets, creation times before 1970, and times in whole seconds that are 0 or do not fit in 32 bits (all violated). The build for Windows is not modelled.

Theorems: `C85_entry_partial`, `C85_violated_seconds`, `C85_violated_zero`, `C85_violated_socket`, `C85_violated_creation`.

Findings in the code: A time in whole seconds is cut to 32 bits: times from 2038 on, or before December 1901, are shown as others (`C85_violated_seconds`). The first second of 1970 is shown as not set (`C85_violated_zero`). Sockets and files with a creation time before 1970 cannot be opened at all (`C85_violated_socket`, `C85_violated_creation`).

### C86 Targets of symbolic links

Approach: The split at separators is modelled on top of the targets of C59 and of NTFS files, and proved to be the inverse of joining.

Result: partial. Missing: NTFS targets without the prefix (violated).

Theorems: `C86_ext`, `C86_none`, `C86_ntfs_partial`, `C86_violated_relative`.

Findings in the code: The first two components of every NTFS target are dropped, as if it began with a prefix. The target of a relative symbolic link, which has no prefix, loses its first two components, and is empty if it has no more (`C86_violated_relative`).

### C87 Data forks of file entries

Approach: The functions are modelled on top of the file entries of ext, FAT and NTFS, so that the theorems speak of the bytes of the volume, with the specifications of C57, C59 and C62.

Result: partial. Missing: what is missing of C57, C59 and C62, and entries of volume systems, images and the operating system (violated).

Theorems: `C87_ext_partial`, `C87_fat_partial`, `C87_ntfs_partial`, `C87_named`, `C87_violated_member`, `C87_violated_os`.

Findings in the code: Partitions, layers of storage media images, files of the operating system and fake files have one data fork each, but retrieving it ends the program with todo!() (`C87_violated_member`, `C87_violated_os`).

### C88 Images made of several files

Approach: The two loops of open are modelled once, with what differs between the formats as parameters. The chain is an inductive predicate on the bytes of the files; open is proved to succeed exactly for chains, by induction over the first loop and an invariant of the second.

Result: partial. Missing: names with surrogates or backslashes, which are escaped, and that opening always ends, which is false (violated). VHDX is relative to what C70 tells of a file, QCOW is within the limits of C38.

Theorems: `C88_vhd_partial`, `C88_vhdx_partial`, `C88_qcow_partial`, `C88_layer`, `C88_violated_cycle`, `C88_violated_cycle_vhdx`, `C88_violated_raw`.

Findings in the code: A VHD or VHDX file that names itself as its parent is read again and again until memory runs out: identifiers are compared only after the whole chain was read (`C88_violated_cycle`, `C88_violated_cycle_vhdx`). A QCOW image with a raw backing file cannot be opened (`C88_violated_raw`). Names of parents with surrogates (VHD, VHDX) or with a backslash (QCOW) are looked for in their escaped form.

### C89 Text of a location

Approach: The text is modelled on top of the text of paths (C49), and the levels of a location and their lines are inductive predicates. The proof that the text has all parts is by induction over the layers.

Result: partial. Missing: the text of locations with layers, which is wrong (violated); it is only proved that the names and paths of all levels are in it.

Theorems: `C89_base`, `C89_parts_partial`, `C89_levels`, `C89_violated_layer`.

Findings in the code: For every location with a layer the text is wrong: the type of the layer and the text of the parent are swapped in the format string (`C89_violated_layer`).

### C90 Folder of the other files of an image

Approach: The resolver is modelled on the file system of the operating system, with `PathBuf::push` of the standard library on Unix; the specification is how Unix resolves a path without symbolic links. The theorem says for every name which file is read, by induction over the text of the path.

Result: partial. Missing: names with a slash or "..", for which the file can be outside the folder (violated). Symbolic links and the paths of Windows are not modelled.

Theorems: `C90_file`, `C90_folder_partial`, `C90_below_partial`, `C90_folder_of_image`, `C90_violated_parent`, `C90_violated_absolute`, `C90_components`.

Findings in the code: An image that names its parent or backing file "../name" is given the file beside the folder of the image (`C90_violated_parent`), and one that names it by an absolute path is given any file (`C90_violated_absolute`).

### C91 File resolvers agree

Approach: Both resolvers are modelled on the same tree of files, a function from paths to what is there. The proof is by cases on what is at the joined path.

Result: partial. Missing: files that are not there, for which the resolver of the operating system fails (violated), and folders and devices.

Theorems: `C91_same_partial`, `C91_missing`, `C91_violated_missing`.

Findings in the code: The resolver of the operating system fails for a file that is missing: it never gives `None` (`C91_violated_missing`).

## Axioms per theorem

As printed by `#print axioms`.

* propext, Classical.choice, Quot.sound: `C01_adler32_chunked`, `C02_crc32_chunked`, `C03_crc32_reflected_chunked`, `C04_md5_chunked`, `C05_sha1_chunked`, `C06_sha224_chunked`, `C06_sha256_chunked`, `C07_sha512_chunked`, `C08_fake_stream_partial`, `C08_fake_stream_read_partial`, `C08_violated`, `C09_file_range_stream`, `C09_window_stream`, `C10_hasher`, `C10_sequential_reads`, `C11_flat_accepts`, `C11_lookup_partial`, `C11_uniform_accepts`, `C12_cache`, `C12_most_recent`, `C13_be_bytes`, `C13_nil_max`, `C13_parse_text`, `C13_rejects_partial`, `C13_round_trip`, `C13_violated_accepts`, `C13_violated_panics`, `C14_unsigned`, `C15_byte_string`, `C15_decode_be`, `C15_decode_le`, `C15_round_trip`, `C16_order`, `C17_decode_encode`, `C17_decode_text`, `C17_stream_skips_white_space`, `C18_accepts_only_well_formed_partial`, `C18_decode_encode`, `C19_code_pages`, `C19_exceptional_pages_partial`, `C19_strings`, `C20_date_values_before_partial`, `C20_date_values_partial`, `C20_violated`, `C21_filetime_partial`, `C21_posix32_partial`, `C21_posix64_partial`, `C21_violated`, `C22_fat_date`, `C22_fat_time_date`, `C22_fat_time_date_10ms`, `C23_adc_decode`, `C23_adc_sound`, `C24_lznt1_bounds`, `C24_lznt1_decode`, `C25_lzvn_bounds`, `C25_lzvn_decode`, `C26_build`, `C26_decode`, `C26_sound`, `C27_deflate_bounds`, `C27_deflate_decode_partial`, `C27_violated_no_distances`, `C28_bounds`, `C28_right_checksum`, `C28_violated_last_four_bytes`, `C28_wrong_checksum_partial`, `C29_complete`, `C29_reverse`, `C29_safe`, `C30_entry_partial`, `C30_stored`, `C31_contents_partial`, `C31_cyclic`, `C31_open_total`, `C31_violated`, `C32_directory`, `C32_lookup`, `C32_names`, `C32_no_start`, `C32_out_of_sequence`, `C32_short_name`, `C32_violated_missing`, `C33_data_runs`, `C34_restore`, `C35_contents`, `C36_contents`, `C36_count_panics`, `C36_ranges`, `C37_contents`, `C37_ranges`, `C37_sound`, `C38_contents_partial`, `C38_open`, `C38_sound_partial`, `C38_violated_cluster_bits`, `C41_contents_partial`, `C41_fork`, `C41_open_partial`, `C42_checked`, `C42_contents_partial`, `C42_violated_segments`, `C43_contents`, `C43_open`, `C43_violated_truncated`, `C44_accepted_partial`, `C44_backup_overflow_panics`, `C44_violated_zero_checksum`, `C44_wellformed`, `C44_window`, `C45_cyclic`, `C45_listing_partial`, `C45_listing_primary`, `C45_total`, `C45_window_partial`, `C46_listing`, `C46_sound`, `C46_window`, `C47_sound`, `C47_stream_partial`, `C48_footer_partial`, `C48_header_partial`, `C48_stream_footer_partial`, `C48_stream_partial`, `C49_ext_text_partial`, `C49_fat_text_partial`, `C49_file_name`, `C49_ntfs_path_partial`, `C49_ntfs_text_partial`, `C49_parent_partial`, `C49_parents_partial`, `C49_violated_supplementary`, `C51_code_points`, `C51_kept`, `C51_kinds`, `C51_safe_partial`, `C51_text`, `C51_ucs2`, `C51_utf8`, `C51_violated_noncharacter`, `C52_filetime_partial`, `C52_posix`, `C52_posix_nanoseconds_partial`, `C52_violated_nanoseconds`, `C52_violated_sign`, `C53_count`, `C53_extension`, `C54_blocks_partial`, `C54_code_length_exists`, `C54_every_data_partial`, `C54_level_exists`, `C54_no_block`, `C54_one_block_partial`, `C54_violated_blocks`, `C54_violated_code_length`, `C54_violated_level`, `C54_violated_over_subscribed`, `C54_violated_run_length`, `C55_contents_partial`, `C55_open`, `C55_violated_missing`, `C55_violated_short`, `C56_format_partial`, `C56_label`, `C56_layout_partial`, `C56_violated_format`, `C56_violated_last`, `C57_path_partial`, `C57_violated_start`, `C58_checked_partial`, `C58_device_partial`, `C58_inode_partial`, `C58_refused`, `C58_violated_groups`, `C58_violated_revision`, `C59_contents_partial`, `C59_directory_partial`, `C59_link_partial`, `C59_path_partial`, `C59_refused`, `C60_complete_partial`, `C60_images_partial`, `C60_sound_partial`, `C60_violated_sectors`, `C60_violated_several`, `C60_violated_small`, `C61_boot`, `C61_violated_exponent`, `C61_volume_partial`, `C62_entry_partial`, `C62_forks_partial`, `C62_link_partial`, `C62_signature_partial`, `C62_streams_partial`, `C62_times_partial`, `C62_violated_allocated`, `C62_violated_bad`, `C62_violated_empty`, `C63_file_partial`, `C63_list_partial`, `C63_lookup_partial`, `C63_path_partial`, `C64_contents_partial`, `C64_reads_partial`, `C64_violated_read`, `C64_violated_size`, `C65_lzx_bounds`, `C65_lzx_decode_partial`, `C65_recent`, `C65_type`, `C65_violated_empty_lengths`, `C65_violated_short`, `C66_lzfse_bounds_partial`, `C66_lzfse_decode_partial`, `C66_marker`, `C66_violated_large`, `C66_violated_small`, `C68_apm`, `C68_exists`, `C68_found_partial`, `C68_listed`, `C68_other_paths`, `C68_root`, `C68_violated_alias`, `C69_refused`, `C69_scan_partial`, `C69_violated_image`, `C69_violated_partition`, `C70_contents_partial`, `C70_open_partial`, `C70_parent_file_name`, `C70_violated_checksum`, `C70_violated_header`, `C70_violated_items`, `C70_violated_kind`, `C70_violated_log`, `C70_violated_regions`, `C70_violated_text`, `C71_no_panic_partial`, `C71_one_object`, `C71_parse`, `C71_violated_comments`, `C71_violated_dates`, `C71_violated_integers`, `C71_violated_markup_in_strings`, `C71_violated_refused`, `C71_violated_several`, `C72_bundle`, `C72_bundle_contents_partial`, `C72_bundle_no_panic_partial`, `C72_decompress_partial`, `C72_udif_contents_partial`, `C72_udif_no_panic_partial`, `C72_udif_open_partial`, `C72_udif_tables`, `C73_bytes_partial`, `C73_points`, `C73_refused`, `C74_contents_partial`, `C74_lzx_partial`, `C74_refused`, `C74_violated_decreasing`, `C74_violated_valid`, `C75_accepted`, `C75_contents_partial`, `C75_hashes`, `C75_values_partial`, `C75_violated_entries`, `C75_volume`, `C76_file`, `C76_listing_partial`, `C76_one_line`, `C76_one_line`, `C76_unambiguous`, `C76_unambiguous`, `C76_unambiguous_partitions`, `C76_unambiguous_partitions`, `C76_violated_lost`, `C76_violated_name`, `C77_export_partial`, `C77_nothing`, `C77_unreadable`, `C77_violated_overwrite`, `C78_fields`, `C78_rows_partial`, `C78_violated_fat`, `C78_violated_link`, `C78_violated_name`, `C79_compare`, `C79_ewf_partial`, `C79_refused`, `C79_sparseimage_partial`, `C79_udif_fork`, `C79_udif_partial`, `C79_violated_layers`, `C80_apm_partial`, `C80_gpt_partial`, `C80_mbr_partial`, `C80_size_partial`, `C80_violated_large`, `C80_violated_logical`, `C80_violated_name`, `C80_violated_sectors`, `C81_ext_partial`, `C81_fat_partial`, `C81_ntfs_partial`, `C81_paths`, `C81_violated_endless`, `C81_violated_feed`, `C81_violated_name`, `C81_violated_stream`, `C82_listing_partial`, `C83_hexdump_partial`, `C83_list_partial`, `C83_violated_empty`, `C83_violated_one`, `C83_violated_twice`, `C84_hierarchy_partial`, `C84_path`, `C84_violated_alias`, `C84_violated_open`, `C85_entry_partial`, `C85_violated_creation`, `C85_violated_seconds`, `C85_violated_socket`, `C86_ext`, `C87_ext_partial`, `C87_fat_partial`, `C87_ntfs_partial`, `C88_qcow_partial`, `C88_vhd_partial`, `C88_vhdx_partial`, `C88_violated_cycle`, `C88_violated_cycle_vhdx`, `C88_violated_raw`, `C89_base`, `C89_parts_partial`, `C89_violated_layer`, `C91_same_partial`, `C91_violated_missing`, `Vhd.C39_bit_order`, `Vhd.C39_contents_partial`, `Vhd.C39_fixed`, `Vhd.C39_open`, `Vhd.C39_sound_partial`, `Vhd.C39_violated_bit_order`, `Vhd.C39_violated_history`, `Vhd.C39_violated_padding`, `Vhd.C39_violated_panic`, `Vhdx.C40_contents_partial`, `Vhdx.C40_sound_partial`, `Vhdx.C40_violated_absent`, `dayNumber_injective`
* propext, Quot.sound: `C10_read_count`, `C11_violated_spanning`, `C13_le_bytes`, `C14_signed`, `C17_no_panic`, `C18_violated`, `C28_violated_larger_buffer`, `C30_bounds`, `C30_data`, `C31_violated_long`, `C34_bounds`, `C34_torn`, `C34_total`, `C36_terminates`, `C38_violated_backing`, `C38_violated_compressed`, `C38_violated_empty`, `C38_violated_history`, `C38_violated_short_backing`, `C38_violated_zero_flag`, `C41_violated_cache`, `C42_violated_cache`, `C47_empty_panics`, `C47_violated_small`, `C48_build_overflows`, `C48_violated_mbr`, `C48_violated_second_buffer`, `C49_string_path_partial`, `C49_string_text_partial`, `C49_violated_empty_text`, `C53_distinct`, `C54_header_partial`, `C56_violated_label`, `C56_violated_panic`, `C58_violated_size`, `C58_violated_times`, `C59_violated_link`, `C59_violated_sparse`, `C62_violated_endless`, `C66_violated_endless`, `C66_violated_truncated`, `C66_violated_v1`, `C67_every_entry_once`, `C67_no_root`, `C71_get`, `C73_ascii`, `C73_no_panic`, `C73_strings`, `C75_violated_date`, `C75_violated_error2`, `C75_violated_notes`, `C75_violated_ratio`, `C77_violated_short`, `C80_types`, `C82_violated_case`, `C86_ntfs_partial`, `C86_violated_relative`, `C87_named`, `C87_violated_member`, `C87_violated_os`, `C88_layer`, `C90_below_partial`, `C90_file`, `C90_folder_of_image`, `C90_folder_partial`, `C90_violated_parent`, `Vhdx.C40_open`, `Vhdx.C40_violated_chunks`, `Vhdx.C40_violated_flags`
* propext: `C11_violated`, `C19_violated`, `C30_violated`, `C41_violated_large`, `C45_violated_location`, `C49_violated_empty`, `C65_violated_calls`, `C65_violated_odd`, `C65_violated_padding`, `C66_violated_distance`, `C66_violated_size`, `C67_violated_cycle`, `C86_none`, `C90_components`, `C90_violated_absolute`, `C91_missing`
* no axioms: `C50_violated`, `C73_alphabets`, `C73_violated`, `C85_violated_zero`, `C89_levels`
* Quot.sound: `C50_partial`, `C50_source`
