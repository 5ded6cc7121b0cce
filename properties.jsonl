{"id": "C01", "title": "Adler-32 is chunking independent and correct", "statement": "Feeding any byte sequence to an Adler-32 context through any sequence of update calls and then calling finalize returns the RFC 1950 Adler-32 of the concatenation, and the context then behaves like a freshly created one.", "quantifier": "every initial value in range, every list of chunks (any number, any sizes), every subsequent use after finalize", "why_tests_cant": "the deferred modulo every 5552 bytes, 32-bit wrap-around and chunk borders give unboundedly many splits and lengths", "anchors": ["keramics-checksums/src/adler32.rs: Adler32Context::new, update, finalize, mod_65521"]}
{"id": "C02", "title": "MSB-first CRC-32 equals polynomial long division for every chunking", "statement": "For every polynomial and initial value, a Crc32Context fed any chunks and finalized returns the bit-at-a-time MSB-first CRC of the concatenation, and is reusable afterwards.", "quantifier": "every 32-bit polynomial, every 32-bit initial value, every list of chunks", "why_tests_cant": "2^64 parameter pairs times unbounded inputs; table construction must be right for all 256 entries of every polynomial", "anchors": ["keramics-checksums/src/crc32.rs: Crc32Context::new, update, finalize"]}
{"id": "C03", "title": "Reflected CRC-32 equals the bitwise reflected definition for every chunking", "statement": "For every reversed polynomial and initial value, a ReversedCrc32Context fed any chunks and finalized returns the bit-at-a-time LSB-first CRC of the concatenation, and is reusable afterwards.", "quantifier": "every 32-bit reversed polynomial, every 32-bit initial value, every list of chunks", "why_tests_cant": "same as C02; GPT header checks rely on split updates giving the same value as one update", "anchors": ["keramics-checksums/src/crc32.rs: ReversedCrc32Context::new, update, finalize"]}
{"id": "C04", "title": "MD5 digest is independent of chunking and equals RFC 1321", "statement": "For every list of chunks fed with update, finalize returns the MD5 digest of their concatenation; after finalize the context hashes a new message as if new.", "quantifier": "every list of chunks with total length below 2^61 bytes, every earlier history of the context", "why_tests_cant": "buffering has a state for each of 64 fill levels and the padding has two shapes; unit vectors exercise only a few", "anchors": ["keramics-hashes/src/md5.rs: Md5Context::new, update, finalize, transform"]}
{"id": "C05", "title": "SHA-1 digest is independent of chunking and equals FIPS 180-4", "statement": "For every list of chunks fed with update, finalize returns the SHA-1 digest of their concatenation; after finalize the context hashes a new message as if new.", "quantifier": "every list of chunks with total length below 2^61 bytes, every earlier history of the context", "why_tests_cant": "as C04", "anchors": ["keramics-hashes/src/sha1.rs: Sha1Context"]}
{"id": "C06", "title": "SHA-224 and SHA-256 digests are independent of chunking and equal FIPS 180-4", "statement": "For every list of chunks fed with update, finalize returns the SHA-224 / SHA-256 digest of their concatenation; after finalize the context hashes a new message as if new.", "quantifier": "every list of chunks with total length below 2^61 bytes, every earlier history of the context", "why_tests_cant": "as C04", "anchors": ["keramics-hashes/src/sha224.rs: Sha224Context", "keramics-hashes/src/sha256.rs: Sha256Context"]}
{"id": "C07", "title": "SHA-512 digest is independent of chunking and equals FIPS 180-4", "statement": "For every list of chunks fed with update, finalize returns the SHA-512 digest of their concatenation; after finalize the context hashes a new message as if new.", "quantifier": "every list of chunks with total length below 2^61 bytes, every earlier history of the context", "why_tests_cant": "as C04, with 128-byte blocks and 128-bit length", "anchors": ["keramics-hashes/src/sha512.rs: Sha512Context"]}
{"id": "C08", "title": "In-memory data stream reads its data followed by zeros", "statement": "A FakeDataStream of declared size S over data D behaves as a stream whose byte i is D[i] for i < len(D) and 0 for len(D) <= i < S; reads never go past S.", "quantifier": "every data, every declared size, every sequence of read and seek calls", "why_tests_cant": "reads crossing the end of the data at every alignment and buffer size", "anchors": ["keramics-core/src/fake_data_stream.rs: FakeDataStream::read, seek"]}
{"id": "C09", "title": "Windowed partition streams expose exactly their window", "statement": "For GPT, MBR and APM partitions and the file range stream: after any sequence of seeks and reads the bytes returned by a read at position q are exactly the underlying bytes from window offset + q, at most window size - q of them, and no byte outside the window is ever returned.", "quantifier": "every underlying stream contents, window, every sequence of read and seek operations, every short-read behaviour of the underlying stream", "why_tests_cant": "op sequences are unbounded and position arithmetic mixes i64 and u64", "anchors": ["keramics-formats/src/gpt/partition.rs: GptPartition::read, seek", "keramics-formats/src/mbr/partition.rs: MbrPartition", "keramics-formats/src/apm/partition.rs: ApmPartition", "keramics-tools/src/range_stream.rs: FileRangeDataStream"]}
{"id": "C10", "title": "Sequential reads reproduce the stream for every buffer-size schedule", "statement": "Reading a stream with any sequence of positive buffer sizes until 0 is returned yields exactly the stream contents, independent of the buffer sizes and of short reads of the layer below.", "quantifier": "every stream contents, every infinite sequence of buffer sizes, every legal short-read schedule", "why_tests_cant": "a hash or copy tool depends on this for all schedules; a test uses one buffer size", "anchors": ["keramics-core/src/data_stream.rs: DataStream", "keramics-tools/src/hasher.rs: DigestHasher::calculate_hash_from_reader", "keramics-tools/src/bodyfile.rs: Bodyfile::calculate_md5"]}
{"id": "C11", "title": "Block tree lookup returns exactly the inserted range", "statement": "After any sequence of insertions that all succeeded, looking up an offset below the data size returns the value of the (unique) inserted range that contains it and nothing if there is none; overlapping insertions are rejected.", "quantifier": "every tree geometry, every sequence of insert_value calls, every lookup offset", "why_tests_cant": "the node shape depends on the first inserted size and on the order of insertions; histories are unbounded", "anchors": ["keramics-formats/src/block_tree.rs: BlockTree::new, get_value, insert_value", "keramics-formats/src/block_tree_node.rs: BlockTreeNode::insert_value"]}
{"id": "C12", "title": "Block cache is bounded and never returns a stale or foreign value", "statement": "Starting from an empty cache of capacity n > 0, after any sequence of inserts of absent keys and lookups the cache holds at most n keys, lookups return the value last inserted under that key or nothing, and the most recently inserted n keys are present.", "quantifier": "every capacity, every sequence of operations", "why_tests_cant": "eviction depends on the whole history", "anchors": ["keramics-formats/src/lru_cache.rs: LruCache"]}
{"id": "C13", "title": "UUID text and byte forms round-trip", "statement": "Parsing the text form of any UUID yields the same UUID; parsing accepts exactly the 36-character hyphenated hexadecimal form (either case) and rejects all other strings; big- and little-endian byte constructors place every byte at its RFC 4122 position; a UUID counts as nil exactly if all 16 octets are 0, and as max exactly if all are 255.", "quantifier": "every 128-bit value, every string", "why_tests_cant": "2^128 values and unbounded strings", "anchors": ["keramics-types/src/uuid.rs: Uuid"]}
{"id": "C14", "title": "Fixed-width integers are decoded with the right byte order", "statement": "For every buffer and offset inside it the integer decoding macros return the little-/big-endian (two's complement for signed types) value of the bytes at that offset.", "quantifier": "every buffer, every in-range offset, all eight widths/orders", "why_tests_cant": "value space is 2^64 per macro", "anchors": ["keramics-types/src/macros.rs: bytes_to_*"]}
{"id": "C15", "title": "UCS-2 and UTF-16 strings decode code units up to the terminator", "statement": "Decoding an even-length byte buffer yields exactly the 16-bit units before the first zero unit (all units if none); re-encoding and decoding round-trips zero-free strings. A byte string is likewise exactly the bytes before the first zero byte.", "quantifier": "every even-length byte buffer, both byte orders", "why_tests_cant": "unbounded buffers", "anchors": ["keramics-types/src/ucs2_string.rs: Ucs2String::from_le_bytes, from_be_bytes", "keramics-types/src/utf16_string.rs: Utf16String", "keramics-types/src/byte_string.rs: ByteString::from, read_data"]}
{"id": "C16", "title": "Case-insensitive UCS-2 comparison is a total order on case-folded strings", "statement": "Comparison of two strings with a case mapping is reflexive, antisymmetric up to folding, transitive and total, and returns Equal exactly when the folded strings are equal.", "quantifier": "every pair / triple of strings, every mapping", "why_tests_cant": "order laws quantify over triples of unbounded strings", "anchors": ["keramics-types/src/ucs2_string.rs: Ucs2String::compare_with_case_folding, new_with_case_folding"]}
{"id": "C17", "title": "Base64 decoding inverts RFC 4648 encoding", "statement": "Decoding the base64 encoding of any byte string returns that byte string; a stream that skips white space reads the same bytes with white space inserted anywhere; arbitrary input never makes the decoder write outside a buffer of three quarters of the input size. Decoding any text without white space gives the whole bytes of its leading alphabet characters if these end the text or complete padding follows them, and an error otherwise.", "quantifier": "every byte string, every output buffer, white space anywhere when it is skipped; standard alphabet", "why_tests_cant": "unbounded strings, three padding shapes", "anchors": ["keramics-encodings/src/base64.rs: Base64Stream / get_value"]}
{"id": "C18", "title": "UTF-8 decoding inverts UTF-8 encoding for every scalar value and never accepts ill-formed input", "statement": "Decoding the UTF-8 encoding of any sequence of Unicode scalar values yields that sequence; ill-formed sequences (overlong, surrogates, above U+10FFFF) are errors.", "quantifier": "every sequence of scalar values, every byte string", "why_tests_cant": "over a million scalars in unbounded combinations", "anchors": ["keramics-encodings/src/utf8.rs: DecoderUtf8"]}
{"id": "C19", "title": "Single-byte code pages decode and encode consistently", "statement": "For every supported single-byte code page and every byte, if the byte decodes to a code point then encoding that code point gives the byte back; every encodable code point decodes back to itself.", "quantifier": "every code page, every byte, every 32-bit code point, unbounded strings", "why_tests_cant": "the encoder tables are separate data from the decoder tables", "anchors": ["keramics-encodings/src/iso8859_*.rs, mac_*.rs, windows*.rs, koi8*.rs"]}
{"id": "C20", "title": "Day counts convert to the right calendar date", "statement": "Converting a day count relative to an epoch to year/month/day gives the proleptic Gregorian date.", "quantifier": "every day count in the supported range, every epoch used by the library", "why_tests_cant": "millions of days; leap-year and century rules", "anchors": ["keramics-datetime/src/util.rs: get_date_values, get_days_in_year, get_days_in_century, get_days_in_month, is_leap_year"]}
{"id": "C21", "title": "FILETIME and POSIX timestamps render the right date and time", "statement": "The ISO 8601 text of a FILETIME or POSIX timestamp denotes exactly that instant.", "quantifier": "every 64-bit / 32-bit timestamp", "why_tests_cant": "2^64 values", "anchors": ["keramics-datetime/src/filetime.rs: Filetime::to_iso8601_string", "keramics-datetime/src/posix.rs"]}
{"id": "C22", "title": "FAT date and time fields decode to their packed values", "statement": "For every 16-bit FAT date, 16-bit time and 8-bit fraction the decoded year, month, day, hours, minutes, seconds are those packed in the bit fields.", "quantifier": "every 16-bit date and time, every 8-bit fraction", "why_tests_cant": "needs all values at once, including invalid months", "anchors": ["keramics-datetime/src/fat.rs: FatDate, FatTimeDate, FatTimeDate10Ms"]}
{"id": "C23", "title": "ADC decompression implements the ADC token semantics and stays in bounds", "statement": "Decompressing the ADC encoding of any token list writes exactly the bytes the tokens denote (literals, back references with overlap); on any input it returns the bytes or an error, never reads or writes out of bounds, and never reports more bytes than the output buffer holds.", "quantifier": "every token list, every byte input, every output size", "why_tests_cant": "inputs are adversarial and unbounded", "anchors": ["keramics-compression/src/adc.rs: AdcContext::decompress"]}
{"id": "C24", "title": "LZNT1 decompression implements the LZNT1 token semantics and stays in bounds", "statement": "Decompressing the LZNT1 encoding of any list of blocks of tokens gives the bytes they denote, with the position dependent offset/length split; on arbitrary input it never accesses memory outside its buffers.", "quantifier": "every token list per block, every byte input, every output size", "why_tests_cant": "the split width changes at 9 thresholds inside every block", "anchors": ["keramics-compression/src/lznt1.rs: Lznt1Context::decompress, decompress_block"]}
{"id": "C25", "title": "LZVN decompression implements the LZVN opcode semantics and stays in bounds", "statement": "Decompressing the LZVN encoding of any opcode list gives the bytes it denotes; on arbitrary input no out-of-bounds access happens.", "quantifier": "every opcode list, every byte input, every output size", "why_tests_cant": "256 opcodes in unbounded sequences with carried distance", "anchors": ["keramics-compression/src/lzvn.rs: LzvnContext::decompress"]}
{"id": "C26", "title": "Huffman decoding inverts canonical Huffman encoding", "statement": "For every list of code lengths forming a prefix code, decoding the canonical codes of any symbol sequence returns that symbol sequence; over-subscribed length sets are rejected; decoding arbitrary bits never goes out of bounds.", "quantifier": "every list of code sizes, every symbol sequence, every bit string", "why_tests_cant": "exponentially many code length sets", "anchors": ["keramics-compression/src/huffman.rs: HuffmanTree::build, decode_symbol"]}
{"id": "C27", "title": "DEFLATE decoding implements RFC 1951 block semantics", "statement": "Decoding any sequence of stored, fixed and dynamic blocks produced by an RFC 1951 encoder returns the bytes denoted by the literals and matches; on arbitrary input the decoder does not write beyond the output buffer.", "quantifier": "every list of blocks and tokens, every byte input, every output size", "why_tests_cant": "bit-level alignment and code tables vary per input", "anchors": ["keramics-compression/src/deflate.rs: DeflateContext, DeflateBitstream"]}
{"id": "C28", "title": "zlib containers with a wrong checksum are rejected", "statement": "Decompressing zlib data whose trailing Adler-32 differs from that of the decompressed bytes returns an error.", "quantifier": "every zlib stream", "why_tests_cant": "unbounded payloads; the trailer boundary case is easy to miss", "anchors": ["keramics-compression/src/zlib.rs: ZlibContext::decompress"]}
{"id": "C29", "title": "Reverse Burrows-Wheeler transform restores the original block", "statement": "For every block and its Burrows-Wheeler transform with origin pointer, the bzip2 reverse transform returns the original block.", "quantifier": "every byte string", "why_tests_cant": "unbounded permutations", "anchors": ["keramics-compression/src/bzip2.rs: Bzip2Context reverse_burrows_wheeler_transform"]}
{"id": "C30", "title": "FAT entries decode to their cluster number for all three widths", "statement": "Reading entry i of a FAT-12, FAT-16 or FAT-32 table written per the Microsoft specification returns the value stored for cluster i; reads at or beyond the table are errors.", "quantifier": "every table contents, every index, all widths", "why_tests_cant": "12-bit packing alternates; all 2^28 indices", "anchors": ["keramics-formats/src/fat/block_allocation_table.rs: FatBlockAllocationTable::read_entry"]}
{"id": "C31", "title": "FAT file contents follow the cluster chain", "statement": "Reading a FAT file stream returns the concatenation of its chain's clusters truncated to the file size, at any position with any buffer sizes; cyclic chains are rejected in finite time.", "quantifier": "every table, chain, file size, sequence of reads and seeks", "why_tests_cant": "chains are unbounded and can be cyclic", "anchors": ["keramics-formats/src/fat/block_stream.rs: FatBlockStream"]}
{"id": "C32", "title": "VFAT long names are reassembled from their entries in the right order", "statement": "Reading directory data yields one entry per stored file with the name it was stored under: the long name if it was stored as long-name entries of any length before the short-name entry, and else the short name with its dot and its case flags; a name is found in any case; out-of-sequence entries are errors.", "quantifier": "every name of 1..255 UCS-2 units, every short name, every directory layout", "why_tests_cant": "many lengths and interleavings", "anchors": ["keramics-formats/src/fat/directory_entries.rs: read_data", "keramics-formats/src/fat/long_name_directory_entry.rs", "keramics-formats/src/fat/directory_entry.rs"]}
{"id": "C33", "title": "NTFS data runs decode to the runs that were encoded", "statement": "Decoding a runlist encoded per the NTFS specification (relative signed cluster deltas, sparse runs, any field widths) yields the same list of runs.", "quantifier": "every list of runs, every valid field width choice", "why_tests_cant": "delta signs and widths combine unboundedly", "anchors": ["keramics-formats/src/ntfs/data_run.rs: NtfsDataRun::read_data", "keramics-formats/src/ntfs/cluster_group.rs: NtfsClusterGroup::read_data_runs"]}
{"id": "C34", "title": "NTFS fix-up restores protected sector ends and detects torn writes", "statement": "Applying fix-ups to a record protected with update sequence values restores the original record; if any protected sector end does not hold the update sequence number an error is returned; out-of-bounds parameters are errors.", "quantifier": "every record, every number of sectors, every corrupted sector", "why_tests_cant": "torn writes can hit any sector subset", "anchors": ["keramics-formats/src/ntfs/fixup_values.rs: apply_fixup_values"]}
{"id": "C35", "title": "NTFS attribute streams read runs, sparse ranges and the uninitialised tail correctly", "statement": "Reading a non-resident attribute stream returns for every byte offset below the valid data size the cluster byte given by its run (0 for sparse) and 0 from valid data size up to the size.", "quantifier": "every run list, sizes, sequence of reads and seeks", "why_tests_cant": "offsets, run boundaries and read sizes combine unboundedly", "anchors": ["keramics-formats/src/ntfs/block_stream.rs: NtfsBlockStream"]}
{"id": "C36", "title": "ext extent trees map every logical block exactly once", "statement": "Reading a well-formed extent tree of any depth yields ranges that partition [0, number_of_blocks) with holes marked sparse, mapping each block to the block given by its extent.", "quantifier": "every well-formed extent tree", "why_tests_cant": "tree shapes are unbounded", "anchors": ["keramics-formats/src/ext/extents_tree.rs: ExtExtentsTree"]}
{"id": "C37", "title": "ext indirect block maps resolve direct to triple indirect blocks", "statement": "Reading the 15 block references of an ext2/3 inode yields ranges that map each logical block to the block number stored for it (0 = sparse), for any block size.", "quantifier": "every block map contents, every file length", "why_tests_cant": "three levels of indirection times unbounded sizes", "anchors": ["keramics-formats/src/ext/block_numbers_tree.rs: ExtBlockNumbersTree", "keramics-formats/src/ext/block_stream.rs: ExtBlockStream"]}
{"id": "C38", "title": "QCOW reads return cluster data, zeros for unallocated, or the backing file", "statement": "Reading a QCOW image at any position returns the mapped cluster bytes where allocated, and for unallocated clusters the backing file bytes if there is a backing file and zeros otherwise.", "quantifier": "every L1/L2 table contents, every offset and sequence of reads", "why_tests_cant": "lazy caching makes results depend on the read history", "anchors": ["keramics-formats/src/qcow/file.rs: QcowFile::read_data_from_blocks, read_cluster_block_entry"]}
{"id": "C39", "title": "VHD reads honour the block allocation table and sector bitmap", "statement": "Reading a dynamic or differential VHD returns file data for sectors whose bitmap bit is set and zeros or parent data otherwise, for every read history.", "quantifier": "every table and bitmap, every sequence of reads", "why_tests_cant": "bitmaps have 2^4096 values; caching depends on history", "anchors": ["keramics-formats/src/vhd/file.rs: VhdFile", "keramics-formats/src/vhd/sector_bitmap.rs: VhdSectorBitmap"]}
{"id": "C40", "title": "VHDX reads honour the block allocation table and sector bitmap", "statement": "Reading a VHDX image returns file data for present blocks/sectors and zeros or parent data otherwise, for every read history.", "quantifier": "every table and bitmap, every sequence of reads", "why_tests_cant": "as C39", "anchors": ["keramics-formats/src/vhdx/file.rs: VhdxFile", "keramics-formats/src/vhdx/sector_bitmap.rs: VhdxSectorBitmap"]}
{"id": "C41", "title": "UDIF reads return the block ranges described by the block tables", "statement": "A UDIF image whose block tables are accepted reads, at each offset, the bytes of the unique block range covering it (raw, zero or decompressed), for every read history.", "quantifier": "every accepted set of block tables, every read sequence", "why_tests_cant": "cache contents depend on the history", "anchors": ["keramics-formats/src/udif/file.rs: UdifFile"]}
{"id": "C42", "title": "EWF reads return the chunk of the right segment", "statement": "Reading an EWF image returns for each chunk the bytes stored for that chunk in its own segment file, for any number of segments and any read history.", "quantifier": "every segment set, every read history", "why_tests_cant": "the caches make the result history dependent", "anchors": ["keramics-formats/src/ewf/image.rs: EwfImage::read_data_from_blocks, read_table_section"]}
{"id": "C43", "title": "Sparse disk images read bands at their mapped place", "statement": "Reading an accepted sparseimage whose stored bands lie inside of the file returns band data for allocated bands and zeros for others.", "quantifier": "every band table, every read", "why_tests_cant": "unbounded offsets", "anchors": ["keramics-formats/src/sparseimage/file.rs: SparseImageFile"]}
{"id": "C44", "title": "GPT partition tables are accepted only if consistent, and partitions are where the table says", "statement": "An accepted GPT table passes header and entry CRC checks, every listed partition has start <= end and a non-nil type, and its stream window is [start*bps, (end+1)*bps).", "quantifier": "every table contents", "why_tests_cant": "2^128 type ids times unbounded block numbers", "anchors": ["keramics-formats/src/gpt/volume_system.rs: GptVolumeSystem", "keramics-formats/src/gpt/partition_table_header.rs"]}
{"id": "C45", "title": "MBR logical partitions are located relative to their own extended boot record", "statement": "For an MBR with any chain of extended boot records, the partitions listed are the primary ones followed by the logical ones, each logical partition starting at its own EBR offset plus its relative start; cyclic chains are rejected.", "quantifier": "every chain of boot records", "why_tests_cant": "chain length is unbounded, cyclic chains are possible", "anchors": ["keramics-formats/src/mbr/volume_system.rs: MbrVolumeSystem::read_boot_records, read_extended_boot_record, get_partition_by_index"]}
{"id": "C46", "title": "APM partition listing matches the partition map", "statement": "For a valid partition map with n entries, entries 1..n-1 are listed in order with offset start*512 and size count*512.", "quantifier": "every map", "why_tests_cant": "unbounded n", "anchors": ["keramics-formats/src/apm/volume_system.rs: ApmVolumeSystem"]}
{"id": "C47", "title": "Signature scanning reports only real matches", "statement": "Every offset-bound signature reported by a scan occurs in the scanned data at its defined place.", "quantifier": "every signature set, every data", "why_tests_cant": "the scan tree is built from the whole signature set", "anchors": ["keramics-sigscan/src/scan_tree.rs", "keramics-sigscan/src/scan_context.rs", "keramics-sigscan/src/signature.rs: Signature::scan_buffer"]}
{"id": "C48", "title": "Signature scanning finds every matching offset-bound signature set member", "statement": "If exactly one header signature occurs in the data, the scan reports it.", "quantifier": "every signature set, every data", "why_tests_cant": "as C47", "anchors": ["keramics-sigscan/src/scan_tree.rs: ScanTree::build", "keramics-sigscan/src/signature_table.rs"]}
{"id": "C49", "title": "VFS paths: join, parent, file name and text form are consistent", "statement": "Joining a component and taking the parent returns the original path; the file name of a joined path is the component; text form and parsing are inverse for separator-free components.", "quantifier": "every path and component", "why_tests_cant": "unbounded component lists", "anchors": ["keramics-vfs/src/string_path.rs: StringPath", "keramics-vfs/src/path.rs: VfsPath", "keramics-formats/src/fat/path.rs", "keramics-formats/src/ntfs/path.rs", "keramics-formats/src/ext/path.rs"]}
{"id": "C50", "title": "The VFS context opens a file system of the requested type for the requested location", "statement": "For every history of open calls, opening a location returns a file system whose type and backing location are those requested.", "quantifier": "every history of opens and drops", "why_tests_cant": "the cache makes results history dependent", "anchors": ["keramics-vfs/src/context.rs: VfsContext::open_file_system"]}
{"id": "C51", "title": "Escaped display strings are unambiguous and safe to show", "statement": "Two different strings never have the same escaped display form. The form has no control characters, no Unicode noncharacters and no slash or colon that is not escaped, and characters that need no escape are kept as they are.", "quantifier": "every pair of strings and every string", "why_tests_cant": "injectivity over unbounded strings", "anchors": ["keramics-tools/src/display_path.rs: DisplayPath::internal_escape_string, get_character_translation_table"]}
{"id": "C52", "title": "Bodyfile timestamps denote the instant", "statement": "The decimal seconds value printed for a FILETIME equals (timestamp/10^7 - 11644473600) seconds exactly, for instants before and after 1970; that for a POSIX time equals its seconds, and that for a POSIX time with nanoseconds its seconds plus its fraction.", "quantifier": "every 64-bit FILETIME and every POSIX time, before and after 1970", "why_tests_cant": "2^64 values", "anchors": ["keramics-tools/src/bodyfile.rs: Bodyfile::format_as_timestamp"]}
{"id": "C53", "title": "EWF segment file extensions are distinct and ordered", "statement": "For each naming schema, distinct supported segment numbers map to distinct extensions following E01..E99, EAA..EZZ, FAA.., and numbers past the last are errors.", "quantifier": "every 16-bit segment number, every schema", "why_tests_cant": "injectivity over all pairs", "anchors": ["keramics-formats/src/ewf/image.rs: get_segment_file_extension"]}
{"id": "C54", "title": "bzip2 decompression restores what was compressed", "statement": "Decompressing a bzip2 stream into a buffer of sufficient size returns the bytes that were compressed, and leaves the rest of the buffer as it was; data that is not such a stream, or that has another checksum, is an error and never a panic.", "quantifier": "every bzip2 stream: every level, number of blocks, set of used bytes, trees, selectors and runs; every buffer", "why_tests_cant": "unbounded payloads, and the choice of trees and selectors is up to the compressor", "anchors": ["keramics-compression/src/bzip2.rs: Bzip2Context::decompress"]}
{"id": "C55", "title": "A sparse bundle reads as its bands", "statement": "Reading a sparse bundle returns for every position of the media the byte that the band file with the number (in hexadecimal) of the position divided by the band size has at the remainder; bands and ends of bands that are not stored read as zeros. A bundle is accepted exactly if the values of its property list are supported.", "quantifier": "every set of band files, band size, media size and sequence of reads and seeks", "why_tests_cant": "reads cross bands in many ways, and any band can be missing or short", "anchors": ["keramics-formats/src/sparsebundle/image.rs: SparseBundleImage::read_info_plist", "keramics-formats/src/sparsebundle/image.rs: SparseBundleImage::read_data_from_bands", "keramics-formats/src/sparsebundle/image.rs: DataStream for SparseBundleImage"]}
{"id": "C56", "title": "FAT volume layout", "statement": "For every data stream whose boot sector describes a FAT-12, FAT-16 or FAT-32 volume, opening it determines the layout the boot sector gives: the width of the allocation table from the number of clusters, where the table, the root directory and the first cluster are, the size of a cluster, the serial number and the volume label.", "quantifier": "all data streams with a valid boot sector", "why_tests_cant": "The parameters of the boot sector combine freely, and the interesting values are at the boundaries between the three formats.", "anchors": ["keramics-formats/src/fat/boot_record.rs: FatBootRecord::read_at_position", "keramics-formats/src/fat/boot_record_fat12.rs: Fat12BootRecord::read_data", "keramics-formats/src/fat/boot_record_fat32.rs: Fat32BootRecord::read_data", "keramics-formats/src/fat/file_system.rs: FatFileSystem::read_data_stream, read_metadata, get_volume_label"]}
{"id": "C57", "title": "FAT path lookup and file contents", "statement": "For every FAT volume and every path of names, looking up the path finds the file or directory the directories on the volume have there, letters in any case, and nothing if there is none; its name, size and kind are the stored ones and its data stream reads as the clusters of its chain, for every sequence of reads and seeks.", "quantifier": "all FAT volumes, all directory contents over any chain of clusters, all paths, all sequences of reads and seeks", "why_tests_cant": "Directories can be spread over any chain of clusters and nested to any depth; tests use one image.", "anchors": ["keramics-formats/src/fat/file_system.rs: FatFileSystem::get_file_entry_by_path, get_root_directory, read_root_directory", "keramics-formats/src/fat/file_entry.rs: FatFileEntry::get_sub_file_entry_by_name, get_data_stream, get_name, get_size, is_directory", "keramics-formats/src/fat/directory_entries.rs: FatDirectoryEntries::read_at_cluster_block, read_at_position, read_data"]}
{"id": "C58", "title": "ext volumes and inodes", "statement": "For every data stream that is a sound ext2, ext3 or ext4 volume, opening it gives the label, times and layout its superblock stores, and the file entry of every inode has the stored mode, owner, group, links, size, times and number of extended attributes. A volume with a feature that is not implemented gives no file entries; a superblock or inode with a wrong checksum is refused.", "quantifier": "all volumes: any block size, inode size, number of groups and features; all inodes", "why_tests_cant": "The parameters of the superblock, the 30 feature bits and the layouts of block groups combine freely; wrong values appear at boundaries such as a full last group, revision 0 or sizes over 4 GiB.", "anchors": ["keramics-formats/src/ext/superblock.rs ExtSuperblock::read_data", "keramics-formats/src/ext/features.rs ExtFeatures", "keramics-formats/src/ext/group_descriptor.rs", "keramics-formats/src/ext/group_descriptor_table.rs", "keramics-formats/src/ext/inode.rs ExtInode::read_data", "keramics-formats/src/ext/inode_ext2.rs", "keramics-formats/src/ext/inode_ext4.rs", "keramics-formats/src/ext/inode_extension_ext4.rs", "keramics-formats/src/ext/attributes_block.rs", "keramics-formats/src/ext/inode_table.rs ExtInodeTable::get_inode", "keramics-formats/src/ext/file_system.rs ExtFileSystem::read_data_stream, get_file_entry_by_identifier"]}
{"id": "C59", "title": "ext directories, paths and contents", "statement": "For every sound ext volume, the sub file entries of a directory are those of its used entries in the order of their names, looking up a path finds the file the directories have there and nothing if there is none, the data stream of a regular file reads as its contents for every sequence of reads and seeks, and the target of a symbolic link is the stored one.", "quantifier": "all volumes, all directories (inline, over extents or block numbers of any depth), all paths, all files (inline, extents, block numbers), all sequences of reads and seeks", "why_tests_cant": "Directories and files can be spread over any extents or indirect blocks; entries can be unused, repeated, of any size and in any order.", "anchors": ["keramics-formats/src/ext/directory_tree.rs ExtDirectoryTree", "keramics-formats/src/ext/directory_entry.rs ExtDirectoryEntry", "keramics-formats/src/ext/file_entry.rs ExtFileEntry", "keramics-formats/src/ext/file_system.rs ExtFileSystem::get_file_entry_by_path", "keramics-formats/src/ext/block_stream.rs ExtBlockStream"]}
{"id": "C60", "title": "Format recognition reports exactly the formats of a stream", "statement": "A format scanner that is asked for a set of formats reports a format for a data stream if and only if the format is one of them and the stream has the documented bytes of the format at their documented place, counted from its start or its end.", "quantifier": "every stream and every set of formats", "why_tests_cant": "the scan tree is shared by all signatures and skips bytes; which formats hide others depends on the whole set and the whole stream", "anchors": ["keramics-formats/src/scanner.rs: FormatScanner::scan_data_stream", "keramics-formats/src/scanner.rs: FormatScanner::add_*_signatures", "keramics-sigscan/src/scan_context.rs", "keramics-vfs/src/scanner/scanner.rs: VfsScanner::build"]}
{"id": "C61", "title": "NTFS volumes are opened as they are on disk", "statement": "Opening an NTFS volume succeeds on every sound volume and gives its sector and cluster size, serial number, label, version and number of files; a boot sector is accepted if and only if it is one, and bad ones give an error, never a crash.", "quantifier": "every volume: all boot sectors, all MFT layouts, all record contents", "why_tests_cant": "The boot sector alone has thousands of combinations of sizes with exponents and limits, and what is read of a volume depends on bytes all over it; a few test images reach a handful.", "anchors": ["keramics-formats/src/ntfs/boot_record.rs NtfsBootRecord::read_data", "keramics-formats/src/ntfs/master_file_table.rs NtfsMasterFileTable::initialize", "keramics-formats/src/ntfs/file_system.rs NtfsFileSystem::read_data_stream", "keramics-formats/src/ntfs/mft_entry.rs NtfsMftEntry::read_data"]}
{"id": "C62", "title": "NTFS files have the attributes, times, links and streams of their records", "statement": "A file looked up by its number has the reference, times, flags, size, link target, kind and data forks of its MFT records, with attributes spread over several records put together, and reading any of its streams gives the bytes of that stream.", "quantifier": "every sound volume, every file, every stream name, every sequence of reads and seeks", "why_tests_cant": "Attributes can be split over records in any number and order, with any runs; streams are read in any pattern. Tests fix one image and a few reads.", "anchors": ["keramics-formats/src/ntfs/file_entry.rs NtfsFileEntry", "keramics-formats/src/ntfs/mft_attributes.rs NtfsMftAttributes", "keramics-formats/src/ntfs/mft_attribute.rs NtfsMftAttribute", "keramics-formats/src/ntfs/attribute_list.rs NtfsAttributeList", "keramics-formats/src/ntfs/standard_information.rs NtfsStandardInformation", "keramics-formats/src/ntfs/reparse_point.rs NtfsReparsePoint", "keramics-formats/src/ntfs/data_fork.rs NtfsDataFork"]}
{"id": "C63", "title": "NTFS directories and paths lead to the right files", "statement": "Looking up a name in an NTFS directory finds the entry with that name under the volume\u2019s own upper case table (or with the same case, where the directory is case sensitive), listing gives every entry but DOS names and \".\", and a path leads to the file that its components lead to.", "quantifier": "every sound volume, directory index of any depth, every name and path", "why_tests_cant": "Indexes are trees of any depth whose nodes are spread over clusters, and comparison uses a table on the volume; tests cannot range over trees, tables and names.", "anchors": ["keramics-formats/src/ntfs/directory_index.rs NtfsDirectoryIndex", "keramics-formats/src/ntfs/index.rs NtfsIndex", "keramics-formats/src/ntfs/index_entry.rs", "keramics-formats/src/ntfs/directory_entries.rs NtfsDirectoryEntries", "keramics-formats/src/ntfs/file_system.rs NtfsFileSystem::get_file_entry_by_path"]}
{"id": "C64", "title": "Compressed NTFS streams read as the uncompressed data", "statement": "A compressed data stream of an NTFS file, read in any pattern, gives the bytes of its compression units: those stored as they are, zeros for sparse units, and the decompressed LZNT1 blocks of the others, with zeros after them.", "quantifier": "every sound volume, every compressed stream, every split of units over data runs and records, every sequence of reads and seeks", "why_tests_cant": "Units can begin and end anywhere in the data runs, the cache of eight units depends on the whole history of reads, and a read can begin and end anywhere in a unit; tests read a few files front to back.", "anchors": ["keramics-formats/src/ntfs/compressed_stream.rs NtfsCompressedStream", "keramics-formats/src/ntfs/compression_range.rs NtfsCompressionRange", "keramics-formats/src/ntfs/mft_attributes.rs NtfsMftAttributes::get_data_stream_by_name", "keramics-compression/src/lznt1.rs Lznt1Context::decompress"]}
{"id": "C65", "title": "LZX decompression inverts the format", "statement": "LZX compressed data (window of 32 KiB, as in the Windows Overlay Filter) of any sequence of verbatim, aligned and uncompressed blocks decompresses to the bytes the blocks stand for, with relative call addresses restored. Any other data gives an error or bytes within the buffer, never a crash.", "quantifier": "every well-formed sequence of blocks with any codes, matches, recent distances and block sizes; for robustness every byte sequence and every buffer", "why_tests_cant": "Code lengths are differences with those of the block before, matches refer to recent distances, and blocks of three kinds follow each other at any bit position; tests decompress three files.", "anchors": ["keramics-compression/src/lzx.rs LzxContext::decompress", "keramics-compression/src/lzx.rs LzxBitstream", "keramics-compression/src/huffman.rs HuffmanTree"]}
{"id": "C66", "title": "LZFSE decompression inverts the format", "statement": "An LZFSE stream of any sequence of uncompressed, LZVN and coded blocks decompresses to the bytes the blocks stand for, in a buffer with room for them. Any other data gives an error or bytes within the buffer: never a crash, an endless loop, or output that was not written.", "quantifier": "every sequence of blocks, with any frequency tables, literals, match lengths, distances and final states of the codes; for robustness every byte sequence and every buffer", "why_tests_cant": "Coded blocks use four finite state entropy codes, whose states depend on all symbols after them, read backwards from two bit streams; each table of frequencies gives other codes. Tests decompress one stream.", "anchors": ["keramics-compression/src/lzfse.rs LzfseContext::decompress", "keramics-compression/src/lzfse.rs LzfseBitstream", "keramics-compression/src/lzfse.rs LzfseDecoderEntry", "keramics-compression/src/lzfse.rs LzfseBlockV2Header"]}
{"id": "C67", "title": "The finder gives every file entry once", "statement": "Iterating a finder over a file system gives every file entry that can be reached from the root exactly once, directories after their contents, each with the names on the way from the root to it; a sub file entry that cannot be opened gives one error and does not stop the search, and behind the last entry the search ends. A search never runs for ever.", "quantifier": "every tree of file entries with any number of levels, any number of sub file entries and any of them that cannot be opened, and any number of calls of next", "why_tests_cant": "The order, the path components and the state stack depend on the whole shape of the tree and on which entries fail; tests walk a few images without errors.", "anchors": ["keramics-vfs/src/finder/finder.rs VfsFinder::next", "keramics-vfs/src/finder/finder.rs VfsFinderState"]}
{"id": "C68", "title": "Partitions and layers are shown as files under the root", "statement": "The file system of an APM, GPT or MBR volume system lists its partitions, and that of an EWF, QCOW, sparseimage, UDIF, VHD or VHDX image its layers, as files under the root in order, named after the kind and their number from 1. The path of such a name gives that entry with the data stream of the partition or layer, \"/\" gives the root directory, and other paths give nothing.", "quantifier": "every volume system and image with any number of partitions or layers, every index and every path", "why_tests_cant": "The name is made in one place and parsed in another, for nine kinds with their own copies of the code; tests open \"/gpt1\".", "anchors": ["keramics-vfs/src/apm/file_system.rs ApmFileSystem", "keramics-vfs/src/gpt/file_system.rs GptFileSystem", "keramics-vfs/src/mbr/file_system.rs MbrFileSystem", "keramics-vfs/src/qcow/file_system.rs QcowFileSystem", "keramics-vfs/src/vhd/file_system.rs VhdFileSystem", "keramics-vfs/src/vhdx/file_system.rs VhdxFileSystem", "keramics-vfs/src/ewf/file_system.rs EwfFileSystem", "keramics-vfs/src/sparseimage/file_system.rs SparseImageFileSystem", "keramics-vfs/src/udif/file_system.rs UdifFileSystem", "keramics-vfs/src/qcow/file_entry.rs QcowFileEntry"]}
{"id": "C69", "title": "Scanning a file gives the tree of what it holds", "statement": "Scanning a file gives a tree of nodes that follows its content: an image with what is in its last layer, a volume system with its partitions in order, and the file system of each, every node with the location by which it can be opened. A boot record of FAT or NTFS is not taken for a partition table. A file that is missing or is no regular file is refused.", "quantifier": "every file of the operating system, every image of any number of layers, every volume system of any number of partitions and every combination of recognised formats", "why_tests_cant": "The nodes depend on the nesting of three layers of formats with their own scanners and on the order in which they are tried; tests scan one image per format.", "anchors": ["keramics-vfs/src/scanner/scanner.rs VfsScanner::scan", "keramics-vfs/src/scanner/scan_node.rs VfsScanNode", "keramics-vfs/src/resolver.rs VfsResolver::open_file_system"]}
{"id": "C70", "title": "Opening a VHDX file gives the disk that its headers and metadata describe", "statement": "Opening a VHDX file succeeds if its headers, region tables, metadata and parent locator are good, and then the block size, media size, sector size, block allocation table, identifier, version, disk type and parent are those that the file tells: of the two headers the one with the larger sequence number counts, of several entries with an identifier the last. A damaged file is refused and never makes the reader panic. One good copy of the header and of the region table is enough, checksums are verified, and changes in the log are applied.", "quantifier": "every content of a file, of any size, with any number of regions, metadata items and parent locator entries, and every history of reads of the opened disk", "why_tests_cant": "Whether a file is good depends on checksums, two copies, and tables whose entries refer to each other; tests open a handful of images.", "anchors": ["keramics-formats/src/vhdx/file.rs VhdxFile::read_data_stream", "keramics-formats/src/vhdx/file.rs VhdxFile::get_parent_file_name", "keramics-formats/src/vhdx/image_header.rs VhdxImageHeader", "keramics-formats/src/vhdx/region_table.rs VhdxRegionTable", "keramics-formats/src/vhdx/metadata_table.rs VhdxMetadataTable", "keramics-formats/src/vhdx/parent_locator.rs VhdxParentLocator"]}
{"id": "C71", "title": "Parsing an XML property list gives the object that the text describes", "statement": "Parsing a text as an XML property list succeeds exactly if the text is one: an optional byte order mark, XML declaration and document type, comments and white space, and a plist element with objects in it, whose strings have the characters of the text, whose data is the base64 of the text without white space, whose integers are decimal numbers of 64 bits, and whose arrays and dictionaries have the objects and pairs in the order of the text. The object is the one described; looking up a key gives the object of the last pair with it. Other texts are refused and none makes the parser panic or run for ever. Every property list that conforms to the document type of Apple is accepted.", "quantifier": "every text of any length with elements nested to any depth, every object, key and floating-point conversion", "why_tests_cant": "The grammar is a backtracking parser whose alternatives and repetitions interact; tests parse a dozen small texts.", "anchors": ["keramics-formats/src/plist/xmlplist.rs XmlPlist::parse", "keramics-formats/src/plist/xmlplist.pest", "keramics-formats/src/plist/object.rs PlistObject"]}
{"id": "C72", "title": "The property lists in disk images decide how the images are opened and read", "statement": "The block tables of a UDIF image are the data of the block map entries in its property list, and the image is read as the media they describe, with compressed blocks decompressed by ADC, zlib, bzip2 or LZFSE. A sparse bundle is opened exactly if its Info.plist is the UTF-8 text of a property list with the version, the type, the band size and the size in their bounds, and it is read with these sizes. No content of a property list makes opening the image panic.", "quantifier": "every file, property list text, block table, compressed block and sequence of reads and seeks", "why_tests_cant": "Tests open one image of each kind with a single well-formed property list.", "anchors": ["keramics-formats/src/udif/file.rs UdifFile::read_metadata", "keramics-formats/src/udif/file.rs read_compressed_block", "keramics-formats/src/sparsebundle/image.rs SparseBundleImage::read_info_plist"]}
{"id": "C73", "title": "Windows 932 text survives encoding and decoding", "statement": "Encoding a string as Windows 932 and decoding the bytes gives the string back, of any length and whatever follows a character. A byte string that is decoded can be encoded again to a byte string of the same length with the same meaning, and to the same bytes except for the characters that have two codes. ASCII is coded as itself. Truncated characters and bytes that are no characters are refused. No input makes the coders panic, and no surrogate is decoded.", "quantifier": "every byte string, code point and string of code points", "why_tests_cant": "Tests compare samples of characters and one string. The tables have about 29000 entries in two directions that must agree with each other.", "anchors": ["keramics-encodings/src/windows932.rs DecoderWindows932::next", "keramics-encodings/src/windows932.rs EncoderWindows932::next"]}
{"id": "C74", "title": "Files compressed by the Windows Overlay Filter read as their contents", "statement": "A file of an NTFS volume that the Windows Overlay Filter compressed has the contents that its blocks stand for, of the size of the file: every read and seek, at any position and of any size, in any order and whatever was read before. Blocks that are as long as their units are taken as they are, others are decompressed with the method of the file. Files with an unknown method, without a stream of compressed data or with one that cannot be used are refused. No table of blocks makes reads panic.", "quantifier": "every volume, every file with a reparse point of the Windows Overlay Filter, every stream of compressed data, every sequence of reads and seeks", "why_tests_cant": "Tests read one image. Units, blocks that are not compressed, the cache of blocks and reads across blocks interact, and the table of blocks comes from the volume.", "anchors": ["keramics-formats/src/ntfs/wof_compressed_stream.rs NtfsWofCompressedStream", "keramics-formats/src/ntfs/mft_attributes.rs NtfsMftAttributes::get_data_stream_by_name", "keramics-formats/src/ntfs/wof_reparse_data.rs"]}
{"id": "C75", "title": "EWF images say what was recorded about the acquisition", "statement": "The case number, examiner, notes, dates and other values of an EWF image are those in its headers: of the first column with the tag of the value, in the first header that has it, as they were stored in bytes or UTF-16, with dates of UTF-16 headers as timestamps. Its MD5 and SHA1 are those of the last sections that record them, its media type, error granularity and set identifier those of its volume. Sections with a wrong checksum, headers outside the first segment and copies of the volume with another set identifier make the image refused. The media reads as the chunks, decompressed by the zlib decompressor of the library.", "quantifier": "every set of segment files, every number and order of sections, every header text in either coding, with any line ends and columns, every zlib stream of it", "why_tests_cant": "Tests read the headers of one image. Which of several headers, columns or hashes counts, how lines end and text is coded, and every checksum range over unbounded inputs from untrusted files.", "anchors": ["keramics-formats/src/ewf/image.rs EwfImage::read_sections, EwfImage::get_header_value", "keramics-formats/src/ewf/header.rs", "keramics-formats/src/ewf/header2.rs", "keramics-formats/src/ewf/object_storage.rs", "keramics-formats/src/ewf/digest.rs", "keramics-formats/src/ewf/hash.rs", "keramics-formats/src/ewf/error2.rs", "keramics-formats/src/ewf/volume.rs"]}
{"id": "C76", "title": "The hash tool lists the digest of every data stream", "statement": "Run on a file that can be scanned, the hash tool prints one line for every data stream of every file entry of every volume in it, sub file entries before their directory: the digest of the contents of the data stream in hexadecimal, a tab, and its path, with the number of its partition before it. A data stream that cannot be read is a line that says so, unless the tool is to stop on errors; then it fails, with the lines before it printed. Two lines have the same path only if they are of the same partition, names and stream name. No path has control characters, so that every line is one line with one tab. A file in which nothing is found is hashed itself.", "quantifier": "every disk, image, partition table and tree of file entries, every number, name and contents of data streams, every way in which reads come short or fail, both settings of stopping on errors, every kind of digest", "why_tests_cant": "Tests of the tool have a few files and compare the output. Which entries are visited, what happens on the failure of any one of them, and whether two paths can look the same range over unbounded trees and names.", "anchors": ["keramics-tools/src/hash_tool.rs", "keramics-tools/src/display_path.rs", "keramics-vfs/src/finder.rs", "keramics-vfs/src/scanner.rs"]}
{"id": "C77", "title": "The export tool writes the data stream that was asked for", "statement": "Run on a file that can be scanned, the export tool ends, and if it succeeds the output file holds exactly the contents of the data stream with the path and name that was asked for. The path is looked for in the file system of every volume. If it is in none of them, the output file is not created or changed and the number of exported data streams is zero. If the file can be written the tool succeeds.", "quantifier": "every disk, image and partition table, every path and name, every contents of data streams, every way in which reads come short and writes fail", "why_tests_cant": "There are no tests of the tool. The contents, the sizes of reads and writes, and the volumes in which a path can be are unbounded.", "anchors": ["keramics-tools/src/export_tool.rs ExportTool::export_data_stream_from_scan_node", "keramics-tools/src/writer.rs DataStreamWriter::write_data_stream", "keramics-vfs/src/path.rs VfsPath::from_path_components", "keramics-vfs/src/location.rs VfsLocation::new_with_parent"]}
{"id": "C78", "title": "The bodyfile lists every file entry in lines that can be read", "statement": "Run on a file that can be scanned, the image tool prints a header and then the lines of every file entry of every volume, each once: one for the file entry, one for each named data stream, and on NTFS one for each $FILE_NAME attribute of the name by which it was found. A line has the MD5 of the contents, the path with the number of the partition, the identifier, the mode, the owner and group, the size and the four times. Whatever the names are, a line is one line, and read at the vertical bars that are not escaped it gives back its eleven fields.", "quantifier": "every disk, image and partition table, every tree of file entries, every name, mode, flag, time and data stream", "why_tests_cant": "There are no tests of the listing. Trees, names and contents are unbounded, and names can hold separators, line feeds and escapes.", "anchors": ["keramics-tools/src/image_tool.rs ImageTool::generate_bodyfile", "keramics-tools/src/image_tool.rs ImageTool::print_file_entry_as_bodyfile", "keramics-tools/src/image_tool.rs ImageTool::print_scan_node_as_bodyfile", "keramics-tools/src/image_tool.rs ImageTool::get_file_mode_string", "keramics-tools/src/bodyfile.rs Bodyfile::calculate_md5", "keramics-tools/src/bodyfile.rs Bodyfile::format_as_timestamp"]}
{"id": "C79", "title": "The hash command reports the MD5 of the media of an image", "statement": "Run on a storage media image the hash command of the image tool prints the MD5 of the media: of the bytes the image stands for, not of the file, from the first to the last. For an EWF image it also prints the MD5 and the SHA1 that the last such sections store, if they do. The digits of calculated and stored MD5 are the same if and only if the hashes are. For a file that is no image, or has the bytes of several formats, no hash is printed and the command fails.", "quantifier": "every file and every set of segment files, every size of the media, chunk, band and table", "why_tests_cant": "There are no tests of the command. Media are of unbounded size and each format maps them in another way.", "anchors": ["keramics-tools/src/image_tool.rs ImageTool::hash", "keramics-tools/src/image_tool.rs ImageTool::scan_for_storage_image_formats", "keramics-tools/src/image_tool.rs StorageMediaImage", "keramics-tools/src/hasher.rs DigestHasher"]}
{"id": "C80", "title": "The info tool lists the partitions of a volume system as they are", "statement": "For a disk with a GUID partition table, a master boot record or an Apple partition map the info tool prints the number of bytes per sector, the number of partitions and, for each partition in the order of the table, its number, its type, its identifier, name or flags, the byte it begins at and the number of bytes it has. Sizes of 1024 bytes and more are given rounded to a tenth of the largest binary unit that fits, with the exact number of bytes.", "quantifier": "every volume, every number of partitions, every offset and size", "why_tests_cant": "There are no tests of the output. The lines depend on the fields of every entry, and on the size of every partition.", "anchors": ["keramics-tools/src/info/gpt.rs GptInfo::print_file", "keramics-tools/src/info/mbr.rs MbrInfo::print_file", "keramics-tools/src/info/apm.rs ApmInfo::print_file", "keramics-tools/src/formatters.rs format_as_bytesize"]}
{"id": "C81", "title": "The info tool lists every file of a file system", "statement": "The hierarchy command of the info tool prints a line for every file and directory of an ext, FAT or NTFS file system, with its path from the root directory: a directory before what is in it, and what is in a directory in the order of the names. For NTFS there is a line for every data stream, with its name after a colon if it has one. Every path is listed once.", "quantifier": "every file system, every depth and number of directories, every name", "why_tests_cant": "There are no tests of the output, and the walk depends on the whole tree.", "anchors": ["keramics-tools/src/info/ext.rs ExtInfo::print_hierarchy", "keramics-tools/src/info/ext.rs ExtInfo::print_hierarchy_file_entry", "keramics-tools/src/info/ntfs.rs NtfsInfo::print_hierarchy", "keramics-tools/src/info/ntfs.rs NtfsInfo::print_hierarchy_file_entry_as_path", "keramics-tools/src/info/fat.rs FatInfo::print_hierarchy"]}
{"id": "C82", "title": "The files of a FAT directory can be listed", "statement": "In every directory of a FAT file system, the number of files and the file for every index are those of the files that can be opened by name: each is there once, in the order of the names without regard to case, with the name, size and kind that is stored, and an index beyond the last is an error. A file that is not a directory has no files.", "quantifier": "every volume, every directory, every number of files, every index", "why_tests_cant": "Entries are kept by their folded name, so what is listed depends on all entries of a directory together.", "anchors": ["keramics-formats/src/fat/file_entry.rs FatFileEntry::get_number_of_sub_file_entries", "keramics-formats/src/fat/file_entry.rs FatFileEntry::get_sub_file_entry_by_index", "keramics-formats/src/fat/directory_entries.rs FatDirectoryEntries::get_entry_by_index"]}
{"id": "C83", "title": "Debug output shows all data", "statement": "A hexdump has a line for every 16 bytes: the offset, the bytes in hexadecimal in 16 columns and their characters, with a dot for those that cannot be printed. If lines are grouped, a line that is the same as the one before it is left out, with \"...\" in the place of lines that are left out, but for the last whole line. The debug text of a list has every value once: \"[v; n]\" if all are the same, on one line if there are up to 16, and else on lines of 16.", "quantifier": "all data of every size, with and without grouping; every list of values", "why_tests_cant": "The text depends on the size modulo 16 and on runs of lines that are the same, which tests sample at a few sizes.", "anchors": ["keramics-core/src/formatters.rs format_as_hexdump", "keramics-core/src/formatters.rs debug_format_array", "keramics-core/src/mediator.rs Mediator::debug_print_data"]}
{"id": "C84", "title": "The image tool prints the hierarchy of an image", "statement": "The hierarchy command of the image tool prints one line for the file, one for the image, one for the volume system, one for each partition in order and one for each file system, each four spaces deeper than what it is in, with the type and the path in it. The path of a partition, and the alias that is printed for a partition of a GPT, lead to that partition.", "quantifier": "every file that is an EWF, QCOW, VHD or VHDX image or no image, with any number of layers and partitions, and every file system or none in each partition", "why_tests_cant": "The output depends on the nesting of formats, the number of partitions and what each of them holds; tests have a few images.", "anchors": ["keramics-tools/src/image_tool.rs scan_for_hierarchy", "keramics-tools/src/image_tool.rs print_scan_node", "keramics-vfs/src/enums.rs VfsType::as_str", "keramics-vfs/src/gpt/file_entry.rs GptFileEntry::get_identifier", "keramics-vfs/src/gpt/file_system.rs get_partition_index"]}
{"id": "C85", "title": "File entries of the operating system have the type and times of the file", "statement": "The file entry of a file of the operating system has the type of its mode (regular file, directory, device, pipe, socket or symbolic link) and its modification, access, change and creation times to the nanosecond.", "quantifier": "all modes, all times in seconds of 64 bits with nanoseconds, and creation times that are supported or not", "why_tests_cant": "Times are stored in one of two ways that depend on the nanoseconds; tests use the files of the tree, whose times are recent.", "anchors": ["keramics-vfs/src/os/file_entry.rs OsFileEntry::open", "keramics-vfs/src/os/file_entry.rs get_posix_datetime_value"]}
{"id": "C86", "title": "Targets of symbolic links", "statement": "The target of a symbolic link of ext or NTFS is given as the path whose components, joined with the separator, are the target that is stored (for NTFS without the prefix of an absolute target). Other files have no target.", "quantifier": "all symbolic links with all targets, absolute and relative", "why_tests_cant": "The components depend on the text of the target, of which tests have one of ext and none of NTFS.", "anchors": ["keramics-vfs/src/file_entry.rs VfsFileEntry::get_symbolic_link_target", "keramics-formats/src/ntfs/file_entry.rs get_symbolic_link_target", "keramics-formats/src/ext/file_entry.rs get_symbolic_link_target"]}
{"id": "C87", "title": "Data forks of file entries", "statement": "A file entry has as many data forks as the file has data streams: one for a regular file of ext or FAT, one for each $DATA stream of a file of NTFS, none for a directory. The data fork at each index below that number has the name of the stream and opens it with its contents; there is no data fork at other indexes. Without a name, looking up a data stream gives the default one; with a name, only files of NTFS have one.", "quantifier": "all volumes, all files and directories on them, all indexes and names", "why_tests_cant": "The number of data forks and the data forks are computed by different functions for fourteen kinds of entries; the file of data forks has no tests.", "anchors": ["keramics-vfs/src/file_entry.rs VfsFileEntry::get_number_of_data_forks", "keramics-vfs/src/file_entry.rs VfsFileEntry::get_data_fork_by_index", "keramics-vfs/src/file_entry.rs VfsFileEntry::get_data_stream_by_name", "keramics-vfs/src/data_fork.rs VfsDataFork"]}
{"id": "C88", "title": "Images made of several files", "statement": "Opening a differential image by name opens the file, the parent it names, the parent of that, and so on to a file without a parent. Opening succeeds exactly if all of these are found, can be read, and have the identifier the file above stores for its parent. The layers are these files, the base first, each on top of the one before. Opening always ends.", "quantifier": "all directories of files, all file names, all chains of parents of any length", "why_tests_cant": "Tests open a single file, or one child with its parent. They cannot tell of all chains that the order and the links are right, nor of all files that opening ends.", "anchors": ["keramics-formats/src/vhd/image.rs VhdImage::open", "keramics-formats/src/vhdx/image.rs VhdxImage::open", "keramics-formats/src/qcow/image.rs QcowImage::open", "keramics-formats/src/vhd/file.rs VhdFile::set_parent", "keramics-formats/src/vhd/file.rs VhdFile::get_parent_file_name"]}
{"id": "C89", "title": "Text of a location", "statement": "The text of a location has one line for every level, the outermost first: the name of the type of the level and its path. Adding a layer adds a level at the end, and changing the path changes only the path of the last level.", "quantifier": "all locations with any number of layers, all types and all paths", "why_tests_cant": "A location can have any number of layers; the function has no tests.", "anchors": ["keramics-vfs/src/location.rs VfsLocation::to_string", "keramics-vfs/src/location.rs VfsLocation::new_with_layer", "keramics-vfs/src/location.rs VfsLocation::new_with_parent", "keramics-vfs/src/enums.rs VfsType::as_str"]}
{"id": "C90", "title": "Folder of the other files of an image", "statement": "When an image is opened, the other files it names (parents, backing files and segments) are read only from the folder of the image or below it: no name in an image makes the program read another file of the system.", "quantifier": "all folders, all names of other files, all working folders and all contents of the file system", "why_tests_cant": "The names come from the image, which can be from anyone, and can be any text; the tests use the names of the test images.", "anchors": ["keramics-vfs/src/file_resolver.rs VfsFileResolver::get_data_stream", "keramics-vfs/src/path.rs VfsPath::new_with_join", "keramics-vfs/src/file_system.rs VfsFileSystem::get_file_entry_by_path"]}
{"id": "C91", "title": "File resolvers agree", "statement": "The file resolver of the operating system and that of a file system give the same for the same names: the data of the file if there is one, and nothing, without an error, if there is none. The callers tell a missing file from a failure by this.", "quantifier": "all trees of files, all folders and all lists of path components", "why_tests_cant": "The tests of the resolvers only look for files that are there.", "anchors": ["keramics-formats/src/os_file_resolver.rs OsFileResolver::get_data_stream", "keramics-vfs/src/file_resolver.rs VfsFileResolver::get_data_stream", "keramics-core/src/os_data_stream.rs open_os_data_stream"]}
