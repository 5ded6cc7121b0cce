{
 "claims": [
  {
   "property": "C01",
   "status": "proved",
   "theorems": [
    "Keramics.Props.C01_adler32_chunked"
   ],
   "note": "Includes absence of overflow panics in the deferred modulo."
  },
  {
   "property": "C02",
   "status": "proved",
   "theorems": [
    "Keramics.Props.C02_crc32_chunked"
   ],
   "note": "Table-driven update equals the bit-serial division; reuse after finalize is part of the statement."
  },
  {
   "property": "C03",
   "status": "proved",
   "theorems": [
    "Keramics.Props.C03_crc32_reflected_chunked"
   ],
   "note": "Spec is the MSB-first division on reversed polynomial, register and bytes."
  },
  {
   "property": "C04",
   "status": "proved",
   "theorems": [
    "Keramics.Props.C04_md5_chunked"
   ],
   "note": "Sine table proved against floor(2^32 |sin i|) over the reals. Messages of 2^61 bytes and more overflow the 64-bit bit counter and are excluded."
  },
  {
   "property": "C05",
   "status": "proved",
   "theorems": [
    "Keramics.Props.C05_sha1_chunked"
   ],
   "note": "Messages below 2^61 bytes, the standard's own limit (2^64 bits)."
  },
  {
   "property": "C06",
   "status": "proved",
   "theorems": [
    "Keramics.Props.C06_sha224_chunked",
    "Keramics.Props.C06_sha256_chunked"
   ],
   "note": "Constants proved to be the fractional bits of roots of primes. Messages below 2^61 bytes, the standard's own limit."
  },
  {
   "property": "C07",
   "status": "proved",
   "theorems": [
    "Keramics.Props.C07_sha512_chunked"
   ],
   "note": "Messages below 2^61 bytes: beyond that the code's 64-bit bit counter overflows (the standard allows 2^128 bits)."
  },
  {
   "property": "C08",
   "status": "partial",
   "theorems": [
    "Keramics.Props.C08_violated",
    "Keramics.Props.C08_fake_stream_partial",
    "Keramics.Props.C08_fake_stream_read_partial"
   ],
   "note": "False of the code for reads crossing the end of the data (witness); proved for declared size <= data length over all histories, and per read for all non-crossing reads."
  },
  {
   "property": "C09",
   "status": "proved",
   "theorems": [
    "Keramics.Props.C09_window_stream",
    "Keramics.Props.C09_file_range_stream"
   ],
   "note": "Windows must end below 2^64 and seek arguments stay in the i64 range; the underlying stream may read short at every call."
  },
  {
   "property": "C10",
   "status": "proved",
   "theorems": [
    "Keramics.Props.C10_sequential_reads",
    "Keramics.Props.C10_read_count",
    "Keramics.Props.C10_hasher"
   ],
   "note": "The unbounded loop is modelled with fuel; the theorem shows length+1 iterations suffice."
  },
  {
   "property": "C12",
   "status": "proved",
   "theorems": [
    "Keramics.Props.C12_cache",
    "Keramics.Props.C12_most_recent"
   ],
   "note": "Invariant over all histories of insert/get."
  },
  {
   "property": "C13",
   "status": "partial",
   "theorems": [
    "Keramics.Props.C13_parse_text",
    "Keramics.Props.C13_round_trip",
    "Keramics.Props.C13_be_bytes",
    "Keramics.Props.C13_le_bytes",
    "Keramics.Props.C13_violated_accepts",
    "Keramics.Props.C13_violated_panics",
    "Keramics.Props.C13_rejects_partial",
    "Keramics.Props.C13_nil_max"
   ],
   "note": "Round trips and byte forms proved; 'accepts exactly' is false of the code for texts with '+' or braces, and some non-ASCII texts panic (witnesses). Rejection proved for ASCII texts without those."
  },
  {
   "property": "C14",
   "status": "proved",
   "theorems": [
    "Keramics.Props.C14_unsigned",
    "Keramics.Props.C14_signed"
   ],
   "note": "Includes the exact panic condition of the unsigned decoders."
  },
  {
   "property": "C15",
   "status": "proved",
   "theorems": [
    "Keramics.Props.C15_decode_le",
    "Keramics.Props.C15_decode_be",
    "Keramics.Props.C15_round_trip",
    "Keramics.Props.C15_byte_string"
   ],
   "note": "Buffers of even length; an odd buffer without terminator panics in the code."
  },
  {
   "property": "C16",
   "status": "proved",
   "theorems": [
    "Keramics.Props.C16_order"
   ],
   "note": "For every case mapping, hence for the built-in table."
  },
  {
   "property": "C17",
   "status": "proved",
   "theorems": [
    "Keramics.Props.C17_decode_encode",
    "Keramics.Props.C17_stream_skips_white_space",
    "Keramics.Props.C17_no_panic",
    "Keramics.Props.C17_decode_text"
   ],
   "note": "Standard alphabet, the only one the code has."
  },
  {
   "property": "C18",
   "status": "partial",
   "theorems": [
    "Keramics.Props.C18_decode_encode",
    "Keramics.Props.C18_violated",
    "Keramics.Props.C18_accepts_only_well_formed_partial"
   ],
   "note": "Round trip proved. 'Ill-formed input is rejected' is false of the code for bytes 0xc0/0xc1 and values above U+10FFFF (witnesses); proved otherwise."
  },
  {
   "property": "C19",
   "status": "partial",
   "theorems": [
    "Keramics.Props.C19_code_pages",
    "Keramics.Props.C19_strings",
    "Keramics.Props.C19_violated",
    "Keramics.Props.C19_exceptional_pages_partial"
   ],
   "note": "Proved in full for 31 code pages; false of the code for ASCII, ISO-8859-2, ISO-8859-4, MacArabic and MacFarsi (witnesses), for which the rest of the property is proved."
  },
  {
   "property": "C20",
   "status": "partial",
   "theorems": [
    "Keramics.Props.C20_date_values_partial",
    "Keramics.Props.C20_date_values_before_partial",
    "Keramics.Props.C20_violated",
    "Keramics.Props.dayNumber_injective"
   ],
   "note": "Proved from every 1 January epoch up to the end of 9999 and back one year. False of the code further back and from year 10000 on (witnesses)."
  },
  {
   "property": "C21",
   "status": "partial",
   "theorems": [
    "Keramics.Props.C21_filetime_partial",
    "Keramics.Props.C21_posix32_partial",
    "Keramics.Props.C21_posix64_partial",
    "Keramics.Props.C21_violated"
   ],
   "note": "FILETIME up to the end of 9999, POSIX from 1969 on; outside that the code is wrong or panics (witnesses)."
  },
  {
   "property": "C22",
   "status": "proved",
   "theorems": [
    "Keramics.Props.C22_fat_date",
    "Keramics.Props.C22_fat_time_date",
    "Keramics.Props.C22_fat_time_date_10ms"
   ],
   "note": "Every value of the packed fields, including the u16 arithmetic."
  },
  {
   "property": "C23",
   "status": "proved",
   "theorems": [
    "Keramics.Props.C23_adc_decode",
    "Keramics.Props.C23_adc_sound"
   ],
   "note": "Every token list decodes to what it denotes; on arbitrary input no panic and a success is the decoding of some token list."
  },
  {
   "property": "C24",
   "status": "proved",
   "theorems": [
    "Keramics.Props.C24_lznt1_decode",
    "Keramics.Props.C24_lznt1_bounds"
   ],
   "note": "Round trip for every list of well-formed blocks; no panic, no 16-bit overflow and no out-of-bounds access on arbitrary input."
  },
  {
   "property": "C25",
   "status": "proved",
   "theorems": [
    "Keramics.Props.C25_lzvn_decode",
    "Keramics.Props.C25_lzvn_bounds"
   ],
   "note": "The code accepts distance 0, which the format excludes: it then leaves the buffer bytes as they were."
  },
  {
   "property": "C26",
   "status": "proved",
   "theorems": [
    "Keramics.Props.C26_build",
    "Keramics.Props.C26_decode",
    "Keramics.Props.C26_sound"
   ],
   "note": "Trees are accepted exactly when the lengths form a non-empty code that is not over-subscribed; decoding inverts the canonical code."
  },
  {
   "property": "C27",
   "status": "partial",
   "theorems": [
    "Keramics.Props.C27_deflate_decode_partial",
    "Keramics.Props.C27_deflate_bounds",
    "Keramics.Props.C27_violated_no_distances"
   ],
   "note": "Every stream of stored, fixed and dynamic blocks decodes to what it denotes, except dynamic blocks without distance codes, which RFC 1951 allows and the code refuses (witness). No panic on arbitrary input."
  },
  {
   "property": "C28",
   "status": "partial",
   "theorems": [
    "Keramics.Props.C28_wrong_checksum_partial",
    "Keramics.Props.C28_right_checksum",
    "Keramics.Props.C28_bounds",
    "Keramics.Props.C28_violated_last_four_bytes",
    "Keramics.Props.C28_violated_larger_buffer"
   ],
   "note": "False of the code when the stream ends with its checksum, the normal case, and the checksum covers the whole buffer (witnesses); proved when data follows and the buffer has the exact size."
  },
  {
   "property": "C11",
   "status": "partial",
   "theorems": [
    "Keramics.Props.C11_lookup_partial",
    "Keramics.Props.C11_flat_accepts",
    "Keramics.Props.C11_uniform_accepts",
    "Keramics.Props.C11_violated",
    "Keramics.Props.C11_violated_spanning"
   ],
   "note": "Lookup and disjointness proved for every geometry and history of aligned insertions; false of the code for unaligned ranges (witness), and ranges that span two nodes panic (witness)."
  },
  {
   "property": "C30",
   "status": "partial",
   "theorems": [
    "Keramics.Props.C30_stored",
    "Keramics.Props.C30_entry_partial",
    "Keramics.Props.C30_bounds",
    "Keramics.Props.C30_data",
    "Keramics.Props.C30_violated"
   ],
   "note": "Every entry of every table is read as the stored bits; out of bounds is an error. The value is the Microsoft value for 12 and 16 bits and for 32 bits with zero reserved bits; with reserved bits set the code is wrong (C30_violated)."
  },
  {
   "property": "C31",
   "status": "partial",
   "theorems": [
    "Keramics.Props.C31_contents_partial",
    "Keramics.Props.C31_open_total",
    "Keramics.Props.C31_cyclic",
    "Keramics.Props.C31_violated",
    "Keramics.Props.C31_violated_long"
   ],
   "note": "Contents for every chain with the number of clusters the size asks for and numbers below 0xff0/0xfff0/0x0ffffff0; opening always ends; cyclic chains are errors. The code rejects longer chains and stops at valid clusters from 0xff0/0xfff0 on (both shown by counterexample)."
  },
  {
   "property": "C32",
   "status": "partial",
   "theorems": [
    "Keramics.Props.C32_directory",
    "Keramics.Props.C32_short_name",
    "Keramics.Props.C32_names",
    "Keramics.Props.C32_lookup",
    "Keramics.Props.C32_out_of_sequence",
    "Keramics.Props.C32_no_start",
    "Keramics.Props.C32_violated_missing"
   ],
   "note": "Every name of 1 to 255 units and every short name in every directory layout, with deleted entries, volume labels and the entries . and ..; looking up a name in any case finds the last file with it. Entries out of sequence and entries without a start are errors, except that a name whose first pieces are missing before the short entry is accepted as a shorter name (C32_violated_missing). Directories in several clusters are in C57."
  },
  {
   "property": "C33",
   "status": "proved",
   "theorems": [
    "Keramics.Props.C33_data_runs"
   ],
   "note": "Every run list, every field width of 1 to 8 bytes, both ends of a list. Block numbers below 2^63."
  },
  {
   "property": "C34",
   "status": "proved",
   "theorems": [
    "Keramics.Props.C34_restore",
    "Keramics.Props.C34_torn",
    "Keramics.Props.C34_bounds",
    "Keramics.Props.C34_total"
   ],
   "note": "The array lies in the first sector before its end, as the format requires."
  },
  {
   "property": "C35",
   "status": "proved",
   "theorems": [
    "Keramics.Props.C35_contents"
   ],
   "note": "Every run list in any number of attribute groups whose runs lie inside the volume, every history of reads and seeks. Uncompressed attributes."
  },
  {
   "property": "C36",
   "status": "proved",
   "theorems": [
    "Keramics.Props.C36_ranges",
    "Keramics.Props.C36_contents",
    "Keramics.Props.C36_terminates",
    "Keramics.Props.C36_count_panics"
   ],
   "note": "Extent trees of every depth (0-5) and shape; ranges partition the blocks and the stream reads the mapped contents for every sequence of reads and seeks. Side finding: a corrupt entry count panics."
  },
  {
   "property": "C37",
   "status": "proved",
   "theorems": [
    "Keramics.Props.C37_ranges",
    "Keramics.Props.C37_contents",
    "Keramics.Props.C37_sound"
   ],
   "note": "Every block map for block sizes that are a multiple of 4 up to 64 KiB; ranges and stream contents."
  },
  {
   "property": "C44",
   "status": "partial",
   "theorems": [
    "Keramics.Props.C44_accepted_partial",
    "Keramics.Props.C44_window",
    "Keramics.Props.C44_wellformed",
    "Keramics.Props.C44_violated_zero_checksum",
    "Keramics.Props.C44_backup_overflow_panics"
   ],
   "note": "Holds except that a stored checksum of 0 is accepted unchecked (proved); the model also shows a panic for a backup sector number that is too large."
  },
  {
   "property": "C45",
   "status": "partial",
   "theorems": [
    "Keramics.Props.C45_listing_partial",
    "Keramics.Props.C45_listing_primary",
    "Keramics.Props.C45_window_partial",
    "Keramics.Props.C45_cyclic",
    "Keramics.Props.C45_total",
    "Keramics.Props.C45_violated_location"
   ],
   "note": "Listing, cycles and termination are proved for every chain of at most 255 extended boot records; the location of logical partitions after the first extended boot record is wrong in the code (proved)."
  },
  {
   "property": "C46",
   "status": "proved",
   "theorems": [
    "Keramics.Props.C46_listing",
    "Keramics.Props.C46_sound",
    "Keramics.Props.C46_window"
   ],
   "note": "For every partition map."
  },
  {
   "property": "C51",
   "status": "partial",
   "theorems": [
    "Keramics.Props.C51_text",
    "Keramics.Props.C51_ucs2",
    "Keramics.Props.C51_code_points",
    "Keramics.Props.C51_utf8",
    "Keramics.Props.C51_kinds",
    "Keramics.Props.C51_kept",
    "Keramics.Props.C51_safe_partial",
    "Keramics.Props.C51_violated_noncharacter"
   ],
   "note": "Unambiguity for every pair of strings, of every kind of string; safety and what is kept for every string. Missing: U+FDE0 to U+FDEF are not escaped."
  },
  {
   "property": "C52",
   "status": "partial",
   "theorems": [
    "Keramics.Props.C52_filetime_partial",
    "Keramics.Props.C52_posix",
    "Keramics.Props.C52_posix_nanoseconds_partial",
    "Keramics.Props.C52_violated_sign",
    "Keramics.Props.C52_violated_nanoseconds"
   ],
   "note": "Exact for every FILETIME except those in the last second before 1970, for which the code loses the sign (proved for each of them), for every POSIX time in seconds, and for every one in nanoseconds except those before 1970 that are no whole second, for which it is wrong (proved for each of them)."
  },
  {
   "property": "C53",
   "status": "proved",
   "theorems": [
    "Keramics.Props.C53_extension",
    "Keramics.Props.C53_distinct",
    "Keramics.Props.C53_count"
   ],
   "note": "For every segment number and schema."
  },
  {
   "property": "C49",
   "status": "partial",
   "theorems": [
    "Keramics.Props.C49_parent_partial",
    "Keramics.Props.C49_parents_partial",
    "Keramics.Props.C49_file_name",
    "Keramics.Props.C49_string_text_partial",
    "Keramics.Props.C49_string_path_partial",
    "Keramics.Props.C49_ntfs_text_partial",
    "Keramics.Props.C49_ntfs_path_partial",
    "Keramics.Props.C49_fat_text_partial",
    "Keramics.Props.C49_ext_text_partial",
    "Keramics.Props.C49_violated_empty",
    "Keramics.Props.C49_violated_empty_text",
    "Keramics.Props.C49_violated_supplementary"
   ],
   "note": "Join, parent and file name for every non-empty path of every kind; text round trips for all texts in the characters for which the code keeps them. Violated for empty paths, non-BMP characters in NTFS and FAT and backslashes in FAT and ext (proved)."
  },
  {
   "property": "C50",
   "status": "partial",
   "theorems": [
    "Keramics.Props.C50_source",
    "Keramics.Props.C50_partial",
    "Keramics.Props.C50_violated"
   ],
   "note": "Any history of opens and drops. The source is always right; type and chain of parents are right when a place is opened with one type only. The cache ignores the type (violation proved)."
  },
  {
   "property": "C47",
   "status": "partial",
   "theorems": [
    "Keramics.Props.C47_sound",
    "Keramics.Props.C47_stream_partial",
    "Keramics.Props.C47_violated_small",
    "Keramics.Props.C47_empty_panics"
   ],
   "note": "Proved for every scanner, data and sequence of buffers that hold the data. The format scanner breaks it for streams smaller than the footer range (witness), and panics on an empty stream."
  },
  {
   "property": "C48",
   "status": "partial",
   "theorems": [
    "Keramics.Props.C48_header_partial",
    "Keramics.Props.C48_footer_partial",
    "Keramics.Props.C48_stream_partial",
    "Keramics.Props.C48_stream_footer_partial",
    "Keramics.Props.C48_violated_mbr",
    "Keramics.Props.C48_violated_second_buffer",
    "Keramics.Props.C48_build_overflows"
   ],
   "note": "Proved for every signature set that can be built, for a signature with a pattern of its own that lies in the first buffer. Violated for signatures that share a pattern, as those of MBR and GPT do (witness), and in later buffers; building overflows the stack for some sets."
  },
  {
   "property": "C43",
   "status": "proved",
   "theorems": [
    "Keramics.Props.C43_open",
    "Keramics.Props.C43_contents",
    "Keramics.Props.C43_violated_truncated"
   ],
   "note": "Every file, every band table, any history. An image is accepted exactly if header and table are right. For a file that ends inside of a band the read goes on with wrong bytes (proved)."
  },
  {
   "property": "C38",
   "status": "partial",
   "theorems": [
    "Keramics.Props.C38_open",
    "Keramics.Props.C38_contents_partial",
    "Keramics.Props.C38_sound_partial",
    "Keramics.Props.C38_violated_backing",
    "Keramics.Props.C38_violated_empty",
    "Keramics.Props.C38_violated_history",
    "Keramics.Props.C38_violated_compressed",
    "Keramics.Props.C38_violated_zero_flag",
    "Keramics.Props.C38_violated_cluster_bits",
    "Keramics.Props.C38_violated_short_backing"
   ],
   "note": "Every history is total and right for uncompressed images of versions 1-3 where every part of the media has a level 2 table, with or without a backing file; every successful history is right also with missing level 2 tables when there is no backing file. The code violates the property for level 1 entries without table (backing file ignored, read fails, history dependent), the zero flag of version 3, compressed clusters (panic) and a backing file smaller than the media; each is proved with a witness."
  },
  {
   "property": "C39",
   "status": "partial",
   "theorems": [
    "Keramics.Props.Vhd.C39_open",
    "Keramics.Props.Vhd.C39_fixed",
    "Keramics.Props.Vhd.C39_contents_partial",
    "Keramics.Props.Vhd.C39_sound_partial",
    "Keramics.Props.Vhd.C39_bit_order",
    "Keramics.Props.Vhd.C39_violated_bit_order",
    "Keramics.Props.Vhd.C39_violated_panic",
    "Keramics.Props.Vhd.C39_violated_padding",
    "Keramics.Props.Vhd.C39_violated_history"
   ],
   "note": "Proved: which disks are accepted; fixed disks; dynamic and differential disks whose blocks (a multiple of 2 MiB) are in the file as a whole or not at all, for every history; every successful history with mixed blocks whose bitmap bytes are the same in both bit orders. The full property is false of the code: bitmaps are read lowest bit first (C39_bit_order, C39_violated_bit_order), the first range can be empty which makes a one-block disk panic (C39_violated_panic), padding bits of small blocks overwrite following blocks (C39_violated_padding), and mixed blocks cannot be read after a whole block (C39_violated_history)."
  },
  {
   "property": "C40",
   "status": "partial",
   "theorems": [
    "Keramics.Props.Vhdx.C40_open",
    "Keramics.Props.Vhdx.C40_contents_partial",
    "Keramics.Props.Vhdx.C40_sound_partial",
    "Keramics.Props.Vhdx.C40_violated_chunks",
    "Keramics.Props.Vhdx.C40_violated_absent",
    "Keramics.Props.Vhdx.C40_violated_flags"
   ],
   "note": "Proved: which values are accepted; disks whose blocks are in the file as a whole or not at all, for every history; every successful history also with partially present blocks. The full property is false of the code: flags 0 (a disk of more than one chunk reads the wrong entries, C40_violated_chunks), flags 3 (parent ignored, C40_violated_flags), and blocks of a differential disk that are not present use a bitmap that need not exist (C40_violated_absent). The headers, region tables and metadata items are those of C70."
  },
  {
   "property": "C29",
   "status": "proved",
   "theorems": [
    "Keramics.Props.C29_reverse",
    "Keramics.Props.C29_complete",
    "Keramics.Props.C29_safe"
   ],
   "note": "Every block of at most 100000 stored bytes, any origin row (also with equal rotations), with the run lengths the reverse transform undoes. Also no panic for any data."
  },
  {
   "property": "C41",
   "status": "partial",
   "theorems": [
    "Keramics.Props.C41_open_partial",
    "Keramics.Props.C41_contents_partial",
    "Keramics.Props.C41_fork",
    "Keramics.Props.C41_violated_cache",
    "Keramics.Props.C41_violated_large"
   ],
   "note": "Every accepted image reads as what its entries stand for, in order, under every history (no alignment or window hypothesis), if its entries can be decompressed and compressed entries at one place have one size; with different sizes the read panics (C41_violated_cache). Which images are accepted is settled for entries that fit in windows of 8 MiB; large entries are rejected or panic (C41_violated_large). The XML property list and the decompressors are parameters."
  },
  {
   "property": "C42",
   "status": "partial",
   "theorems": [
    "Keramics.Props.C42_contents_partial",
    "Keramics.Props.C42_checked",
    "Keramics.Props.C42_violated_segments",
    "Keramics.Props.C42_violated_cache"
   ],
   "note": "Every accepted image of at most 16 segments reads as its chunks, each as stored in its own segment file, under every history, if the chunks can be read and no compressed chunks of different segments share an offset. The full property is false of the code: with more than 16 segments the chunks of all but the last 16 cannot be read (C42_violated_segments, for every such image), and the cache of decompressed chunks ignores the segment (C42_violated_cache). zlib and the sections without chunks are parameters."
  },
  {
   "property": "C54",
   "status": "partial",
   "theorems": [
    "Keramics.Props.C54_blocks_partial",
    "Keramics.Props.C54_one_block_partial",
    "Keramics.Props.C54_every_data_partial",
    "Keramics.Props.C54_header_partial",
    "Keramics.Props.C54_no_block",
    "Keramics.Props.C54_violated_blocks",
    "Keramics.Props.C54_violated_level",
    "Keramics.Props.C54_level_exists",
    "Keramics.Props.C54_violated_code_length",
    "Keramics.Props.C54_code_length_exists",
    "Keramics.Props.C54_violated_over_subscribed",
    "Keramics.Props.C54_violated_run_length"
   ],
   "note": "Every stream of one block of at most 100000 stored bytes with code lengths up to 19 is restored, and every non-empty data of that size has such streams at every level. The full property is false of the code: streams of two blocks (combined checksum compared with the CRC of all bytes), blocks of more than 100000 bytes (levels 2 to 9) and codes of 20 bits are rejected; over-subscribed codes and run lengths of 64 digits panic. Missing: which other malformed data panics."
  },
  {
   "property": "C55",
   "status": "partial",
   "theorems": [
    "Keramics.Props.C55_open",
    "Keramics.Props.C55_contents_partial",
    "Keramics.Props.C55_violated_missing",
    "Keramics.Props.C55_violated_short"
   ],
   "note": "Which property lists are accepted, and every history on bundles that store every byte. The full property is false of the code: bands that are not stored are errors (C55_violated_missing), and a read of a short band goes on with the next (C55_violated_short). The parser of the property list is a parameter."
  },
  {
   "property": "C56",
   "status": "partial",
   "theorems": [
    "Keramics.Props.C56_layout_partial",
    "Keramics.Props.C56_format_partial",
    "Keramics.Props.C56_label",
    "Keramics.Props.C56_violated_format",
    "Keramics.Props.C56_violated_last",
    "Keramics.Props.C56_violated_panic",
    "Keramics.Props.C56_violated_label"
   ],
   "note": "Missing: volumes whose number of clusters crosses a boundary only with the sectors of the root directory, of which C56_violated_format shows that the code takes one for another format. That the table has entries for the last two clusters is false (C56_violated_last)."
  },
  {
   "property": "C57",
   "status": "partial",
   "theorems": [
    "Keramics.Props.C57_path_partial",
    "Keramics.Props.C57_violated_start"
   ],
   "note": "Missing: clusters the code cannot reach (C56_violated_last, C30_violated, C31_violated) and files that start at cluster 65536 or later, of which C57_violated_start shows that the code looks elsewhere. Names are UCS-2 strings. Directories end with zeros."
  },
  {
   "property": "C58",
   "status": "partial",
   "theorems": [
    "Keramics.Props.C58_inode_partial",
    "Keramics.Props.C58_device_partial",
    "Keramics.Props.C58_refused",
    "Keramics.Props.C58_checked_partial",
    "Keramics.Props.C58_violated_groups",
    "Keramics.Props.C58_violated_revision",
    "Keramics.Props.C58_violated_size",
    "Keramics.Props.C58_violated_times"
   ],
   "note": "C58_inode_partial covers all block sizes, inode sizes, numbers of groups and feature combinations within the structure Handled (volume) and FileHandled (inode), which list what the code cannot do. C58_refused and C58_checked_partial say what is never accepted. Missing: what the restrictions exclude, of which four are shown to be violations; names and values of extended attributes."
  },
  {
   "property": "C59",
   "status": "partial",
   "theorems": [
    "Keramics.Props.C59_directory_partial",
    "Keramics.Props.C59_path_partial",
    "Keramics.Props.C59_contents_partial",
    "Keramics.Props.C59_link_partial",
    "Keramics.Props.C59_refused",
    "Keramics.Props.C59_violated_link",
    "Keramics.Props.C59_violated_sparse"
   ],
   "note": "Within the restrictions of Handled and FileHandled: listing (sorted, complete, by index and name), path lookup, contents of inline, extent and block number files, link targets. Missing: directories with blocks that are not stored (C59_violated_sparse), inline data over 60 bytes, extents beyond the size, links with bytes after the target (C59_violated_link). Names are bytes (UTF-8)."
  },
  {
   "property": "C60",
   "status": "partial",
   "theorems": [
    "Keramics.Props.C60_sound_partial",
    "Keramics.Props.C60_complete_partial",
    "Keramics.Props.C60_images_partial",
    "Keramics.Props.C60_violated_sectors",
    "Keramics.Props.C60_violated_several",
    "Keramics.Props.C60_violated_small"
   ],
   "note": "For storage media images an equivalence for every stream of at least 520 bytes. In general sound for every set and every stream of at least 520 bytes; complete for the only format of a stream, except partition tables. False of the code otherwise (witnesses)."
  },
  {
   "property": "C61",
   "status": "partial",
   "theorems": [
    "Keramics.Props.C61_boot",
    "Keramics.Props.C61_violated_exponent",
    "Keramics.Props.C61_volume_partial"
   ],
   "note": "C61_boot is complete. C61_volume_partial asks, of an MFT with an attribute list, that the records in the list describe its runs in the order of their numbers; C61_violated_exponent shows the crash."
  },
  {
   "property": "C62",
   "status": "partial",
   "theorems": [
    "Keramics.Props.C62_entry_partial",
    "Keramics.Props.C62_violated_allocated",
    "Keramics.Props.C62_violated_endless",
    "Keramics.Props.C62_signature_partial",
    "Keramics.Props.C62_violated_empty",
    "Keramics.Props.C62_violated_bad",
    "Keramics.Props.C62_times_partial",
    "Keramics.Props.C62_link_partial",
    "Keramics.Props.C62_forks_partial",
    "Keramics.Props.C62_streams_partial"
   ],
   "note": "Compressed streams are in C64. Missing: streams of the Windows Overlay Filter, attribute lists larger than a cluster. C62_violated_allocated, C62_violated_empty, C62_violated_bad and C62_violated_endless show where the code differs."
  },
  {
   "property": "C63",
   "status": "partial",
   "theorems": [
    "Keramics.Props.C63_lookup_partial",
    "Keramics.Props.C63_list_partial",
    "Keramics.Props.C63_file_partial",
    "Keramics.Props.C63_path_partial"
   ],
   "note": "Restricted to index records not smaller than clusters, each in one run, and of at most 65535 bytes."
  },
  {
   "property": "C64",
   "status": "partial",
   "theorems": [
    "Keramics.Props.C64_contents_partial",
    "Keramics.Props.C64_reads_partial",
    "Keramics.Props.C64_violated_read",
    "Keramics.Props.C64_violated_size"
   ],
   "note": "C64_contents_partial: every sequence of reads that succeeds gives the right bytes up to the valid data size. C64_reads_partial: reads that start at a unit, stay in a unit or start in a unit that is not compressed succeed. Other reads crash: C64_violated_read. The size is wrong where it is larger than the valid size: C64_violated_size."
  },
  {
   "property": "C65",
   "status": "partial",
   "theorems": [
    "Keramics.Props.C65_lzx_decode_partial",
    "Keramics.Props.C65_lzx_bounds",
    "Keramics.Props.C65_violated_empty_lengths",
    "Keramics.Props.C65_violated_short",
    "Keramics.Props.C65_violated_calls",
    "Keramics.Props.C65_violated_padding",
    "Keramics.Props.C65_violated_odd",
    "Keramics.Props.C65_type",
    "Keramics.Props.C65_recent"
   ],
   "note": "C65_lzx_decode_partial excludes the five cases of the C65_violated theorems; everything else of the format is included. C65_lzx_bounds holds for all input."
  },
  {
   "property": "C66",
   "status": "partial",
   "theorems": [
    "Keramics.Props.C66_lzfse_decode_partial",
    "Keramics.Props.C66_lzfse_bounds_partial",
    "Keramics.Props.C66_violated_small",
    "Keramics.Props.C66_violated_large",
    "Keramics.Props.C66_violated_v1",
    "Keramics.Props.C66_violated_distance",
    "Keramics.Props.C66_violated_size",
    "Keramics.Props.C66_violated_truncated",
    "Keramics.Props.C66_violated_endless",
    "Keramics.Props.C66_marker"
   ],
   "note": "C66_lzfse_decode_partial excludes version 1 blocks, coded blocks with less than 4 bytes of data and buffers of 2 GiB or more, and LZVN blocks do not refer to earlier blocks; C66_lzfse_bounds_partial speaks of calls that return a result. The C66_violated theorems show why."
  },
  {
   "property": "C67",
   "status": "partial",
   "theorems": [
    "Keramics.Props.C67_every_entry_once",
    "Keramics.Props.C67_no_root",
    "Keramics.Props.C67_violated_cycle"
   ],
   "note": "C67_every_entry_once is the full claim for file entries that form a tree; C67_violated_cycle shows that a search does not end if they do not."
  },
  {
   "property": "C68",
   "status": "partial",
   "theorems": [
    "Keramics.Props.C68_listed",
    "Keramics.Props.C68_root",
    "Keramics.Props.C68_found_partial",
    "Keramics.Props.C68_violated_alias",
    "Keramics.Props.C68_other_paths",
    "Keramics.Props.C68_exists",
    "Keramics.Props.C68_apm"
   ],
   "note": "C68_listed, C68_root and C68_exists are the claim for the names of the entries; that other paths give nothing holds only up to a plus sign and leading zeros of the number (C68_found_partial, C68_violated_alias)."
  },
  {
   "property": "C69",
   "status": "partial",
   "theorems": [
    "Keramics.Props.C69_scan_partial",
    "Keramics.Props.C69_violated_image",
    "Keramics.Props.C69_violated_partition",
    "Keramics.Props.C69_refused"
   ],
   "note": "C69_scan_partial is the claim for EWF, QCOW, VHD and VHDX images and for raw disks whose partitions all can be recognised or hold nothing that is known. The cache of file systems is left out (C50)."
  },
  {
   "property": "C70",
   "status": "partial",
   "theorems": [
    "Keramics.Props.C70_open_partial",
    "Keramics.Props.C70_contents_partial",
    "Keramics.Props.C70_parent_file_name",
    "Keramics.Props.C70_violated_header",
    "Keramics.Props.C70_violated_regions",
    "Keramics.Props.C70_violated_items",
    "Keramics.Props.C70_violated_text",
    "Keramics.Props.C70_violated_checksum",
    "Keramics.Props.C70_violated_log",
    "Keramics.Props.C70_violated_kind"
   ],
   "note": "C70_open_partial: a file is opened if and only if it is good, both copies included, and with its values; for at most 2047 items and even texts."
  },
  {
   "property": "C71",
   "status": "partial",
   "theorems": [
    "Keramics.Props.C71_parse",
    "Keramics.Props.C71_one_object",
    "Keramics.Props.C71_no_panic_partial",
    "Keramics.Props.C71_get",
    "Keramics.Props.C71_violated_dates",
    "Keramics.Props.C71_violated_markup_in_strings",
    "Keramics.Props.C71_violated_integers",
    "Keramics.Props.C71_violated_comments",
    "Keramics.Props.C71_violated_refused",
    "Keramics.Props.C71_violated_several"
   ],
   "note": "C71_parse: the parser returns an object if and only if the text describes it, for all texts. C71_no_panic_partial: no panic if no date element starts in the text. Exhaustion of the stack on deep nesting is not modelled; the conversion of floating-point texts is a parameter."
  },
  {
   "property": "C72",
   "status": "partial",
   "theorems": [
    "Keramics.Props.C72_udif_tables",
    "Keramics.Props.C72_udif_no_panic_partial",
    "Keramics.Props.C72_udif_open_partial",
    "Keramics.Props.C72_decompress_partial",
    "Keramics.Props.C72_udif_contents_partial",
    "Keramics.Props.C72_bundle",
    "Keramics.Props.C72_bundle_no_panic_partial",
    "Keramics.Props.C72_bundle_contents_partial"
   ],
   "note": "C72_bundle and C72_udif_tables are exact. The partial theorems inherit the limits of the parser, readers and decompressors they compose."
  },
  {
   "property": "C73",
   "status": "partial",
   "theorems": [
    "Keramics.Props.C73_points",
    "Keramics.Props.C73_strings",
    "Keramics.Props.C73_bytes_partial",
    "Keramics.Props.C73_violated",
    "Keramics.Props.C73_no_panic",
    "Keramics.Props.C73_refused",
    "Keramics.Props.C73_ascii",
    "Keramics.Props.C73_alphabets"
   ],
   "note": "Everything holds but that the same bytes are written again for characters with two codes; C73_bytes_partial says exactly for which strings they are."
  },
  {
   "property": "C74",
   "status": "partial",
   "theorems": [
    "Keramics.Props.C74_contents_partial",
    "Keramics.Props.C74_lzx_partial",
    "Keramics.Props.C74_refused",
    "Keramics.Props.C74_violated_decreasing",
    "Keramics.Props.C74_violated_valid"
   ],
   "note": "Missing: files with a valid data size below their size, tables of blocks that are not in order, LZX data that C65 excludes; LZXPRESS Huffman is a parameter."
  },
  {
   "property": "C75",
   "status": "partial",
   "theorems": [
    "Keramics.Props.C75_values_partial",
    "Keramics.Props.C75_hashes",
    "Keramics.Props.C75_volume",
    "Keramics.Props.C75_accepted",
    "Keramics.Props.C75_contents_partial",
    "Keramics.Props.C75_violated_notes",
    "Keramics.Props.C75_violated_date",
    "Keramics.Props.C75_violated_ratio",
    "Keramics.Props.C75_violated_error2",
    "Keramics.Props.C75_violated_entries"
   ],
   "note": "Missing: notes and empty dates of UTF-16 headers, headers compressed to less than a quarter, and what C42 excludes."
  },
  {
   "property": "C76",
   "status": "partial",
   "theorems": [
    "Keramics.Props.C76_listing_partial",
    "Keramics.Props.C76_file",
    "Keramics.Props.C76_unambiguous",
    "Keramics.Props.C76_unambiguous_partitions",
    "Keramics.Props.C76_one_line",
    "Keramics.Props.C76_violated_lost",
    "Keramics.Props.C76_violated_name"
   ],
   "note": "Missing: file entries that cannot be opened end the listing, names that are not valid UTF-8 make the tool panic. Paths with identifiers instead of numbers of partitions are not covered."
  },
  {
   "property": "C77",
   "status": "partial",
   "theorems": [
    "Keramics.Props.C77_export_partial",
    "Keramics.Props.C77_unreadable",
    "Keramics.Props.C77_nothing",
    "Keramics.Props.C77_violated_overwrite",
    "Keramics.Props.C77_violated_short"
   ],
   "note": "Missing: with more than one volume that has the path only one data stream is kept; short writes fail."
  },
  {
   "property": "C78",
   "status": "partial",
   "theorems": [
    "Keramics.Props.C78_rows_partial",
    "Keramics.Props.C78_fields",
    "Keramics.Props.C78_violated_fat",
    "Keramics.Props.C78_violated_link",
    "Keramics.Props.C78_violated_name",
    "Keramics.Props.C76_unambiguous",
    "Keramics.Props.C76_unambiguous_partitions",
    "Keramics.Props.C76_one_line"
   ],
   "note": "Missing: what cannot be read or has an unsupported time ends the listing; targets of symbolic links are not escaped."
  },
  {
   "property": "C79",
   "status": "partial",
   "theorems": [
    "Keramics.Props.C79_sparseimage_partial",
    "Keramics.Props.C79_udif_partial",
    "Keramics.Props.C79_udif_fork",
    "Keramics.Props.C79_ewf_partial",
    "Keramics.Props.C79_refused",
    "Keramics.Props.C79_compare",
    "Keramics.Props.C79_violated_layers"
   ],
   "note": "Missing: QCOW, VHD and VHDX panic; for the others the conditions under which the media are what the image stands for, of C41, C43 and C75, and media below 2 EiB."
  },
  {
   "property": "C80",
   "status": "partial",
   "theorems": [
    "Keramics.Props.C80_size_partial",
    "Keramics.Props.C80_gpt_partial",
    "Keramics.Props.C80_types",
    "Keramics.Props.C80_mbr_partial",
    "Keramics.Props.C80_apm_partial",
    "Keramics.Props.C80_violated_large",
    "Keramics.Props.C80_violated_logical",
    "Keramics.Props.C80_violated_sectors",
    "Keramics.Props.C80_violated_name"
   ],
   "note": "Missing: sizes of 1 EiB and more, logical partitions, the guess of the bytes per sector, names that are no UTF-8 or have line feeds. The scan of the format before and the printing of other formats are not modelled."
  },
  {
   "property": "C81",
   "status": "partial",
   "theorems": [
    "Keramics.Props.C81_ext_partial",
    "Keramics.Props.C81_paths",
    "Keramics.Props.C81_ntfs_partial",
    "Keramics.Props.C81_fat_partial",
    "Keramics.Props.C81_violated_stream",
    "Keramics.Props.C81_violated_name",
    "Keramics.Props.C81_violated_feed",
    "Keramics.Props.C81_violated_endless"
   ],
   "note": "Missing: names that are no UTF-8 or have line feeds or surrogates, files of NTFS without data streams, FAT files with the same name but for case, trees with entries that lead back."
  },
  {
   "property": "C82",
   "status": "partial",
   "theorems": [
    "Keramics.Props.C82_listing_partial",
    "Keramics.Props.C82_violated_case"
   ],
   "note": "Missing: files with the same name but for case, and the limits of C57 (clusters out of reach, reserved bits)."
  },
  {
   "property": "C83",
   "status": "partial",
   "theorems": [
    "Keramics.Props.C83_hexdump_partial",
    "Keramics.Props.C83_list_partial",
    "Keramics.Props.C83_violated_one",
    "Keramics.Props.C83_violated_twice",
    "Keramics.Props.C83_violated_empty"
   ],
   "note": "Missing: data with a last line of one byte, lists without values or of more than 16 that are not a multiple of 16 (all violated)."
  },
  {
   "property": "C84",
   "status": "partial",
   "theorems": [
    "Keramics.Props.C84_hierarchy_partial",
    "Keramics.Props.C84_path",
    "Keramics.Props.C84_violated_alias",
    "Keramics.Props.C84_violated_open"
   ],
   "note": "Missing: files that C69 leaves out; file systems that are recognised and cannot be opened, and the aliases (both violated)."
  },
  {
   "property": "C85",
   "status": "partial",
   "theorems": [
    "Keramics.Props.C85_entry_partial",
    "Keramics.Props.C85_violated_seconds",
    "Keramics.Props.C85_violated_zero",
    "Keramics.Props.C85_violated_socket",
    "Keramics.Props.C85_violated_creation"
   ],
   "note": "Missing: sockets, creation times before 1970, and times in whole seconds that are 0 or do not fit in 32 bits (all violated). The build for Windows is not modelled."
  },
  {
   "property": "C86",
   "status": "partial",
   "theorems": [
    "Keramics.Props.C86_ext",
    "Keramics.Props.C86_none",
    "Keramics.Props.C86_ntfs_partial",
    "Keramics.Props.C86_violated_relative"
   ],
   "note": "Missing: NTFS targets without the prefix (violated)."
  },
  {
   "property": "C87",
   "status": "partial",
   "theorems": [
    "Keramics.Props.C87_ext_partial",
    "Keramics.Props.C87_fat_partial",
    "Keramics.Props.C87_ntfs_partial",
    "Keramics.Props.C87_named",
    "Keramics.Props.C87_violated_member",
    "Keramics.Props.C87_violated_os"
   ],
   "note": "Missing: what is missing of C57, C59 and C62, and entries of volume systems, images and the operating system (violated)."
  },
  {
   "property": "C88",
   "status": "partial",
   "theorems": [
    "Keramics.Props.C88_vhd_partial",
    "Keramics.Props.C88_vhdx_partial",
    "Keramics.Props.C88_qcow_partial",
    "Keramics.Props.C88_layer",
    "Keramics.Props.C88_violated_cycle",
    "Keramics.Props.C88_violated_cycle_vhdx",
    "Keramics.Props.C88_violated_raw"
   ],
   "note": "Missing: names with surrogates or backslashes, which are escaped, and that opening always ends, which is false (violated). VHDX is relative to what C70 tells of a file, QCOW is within the limits of C38."
  },
  {
   "property": "C89",
   "status": "partial",
   "theorems": [
    "Keramics.Props.C89_base",
    "Keramics.Props.C89_parts_partial",
    "Keramics.Props.C89_levels",
    "Keramics.Props.C89_violated_layer"
   ],
   "note": "Missing: the text of locations with layers, which is wrong (violated); it is only proved that the names and paths of all levels are in it."
  },
  {
   "property": "C90",
   "status": "partial",
   "theorems": [
    "Keramics.Props.C90_file",
    "Keramics.Props.C90_folder_partial",
    "Keramics.Props.C90_below_partial",
    "Keramics.Props.C90_folder_of_image",
    "Keramics.Props.C90_violated_parent",
    "Keramics.Props.C90_violated_absolute",
    "Keramics.Props.C90_components"
   ],
   "note": "Missing: names with a slash or \"..\", for which the file can be outside the folder (violated). Symbolic links and the paths of Windows are not modelled."
  },
  {
   "property": "C91",
   "status": "partial",
   "theorems": [
    "Keramics.Props.C91_same_partial",
    "Keramics.Props.C91_missing",
    "Keramics.Props.C91_violated_missing"
   ],
   "note": "Missing: files that are not there, for which the resolver of the operating system fails (violated), and folders and devices."
  }
 ]
}