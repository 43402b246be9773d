{
 "claims": [
  {
   "property": "C01",
   "status": "proved",
   "theorems": [
    "Mlio.C01_recordio_roundtrip",
    "Mlio.C01_recordio_roundtrip_mem"
   ],
   "note": "Both chunk readers, every chunk size and short-read schedule."
  },
  {
   "property": "C02",
   "status": "proved",
   "theorems": [
    "Mlio.C02_recordio_arbitrary"
   ],
   "note": ""
  },
  {
   "property": "C03",
   "status": "proved",
   "theorems": [
    "Mlio.C03_recordio_chunk_independent",
    "Mlio.C03_recordio_same",
    "Mlio.C03_recordio_total"
   ],
   "note": "Equality with decoding the whole contents at once, plus totality (only ok or corrupt-header outcomes)."
  },
  {
   "property": "C04",
   "status": "partial",
   "theorems": [
    "Mlio.C04_split_records_partial",
    "Mlio.C04_every_dataset",
    "Mlio.C04_truncated_violated",
    "Mlio.C04_recordio_files_partial"
   ],
   "note": "Exact for every dataset except those that end inside a split record: there the code dereferences a null data store (proved)."
  },
  {
   "property": "C05",
   "status": "partial",
   "theorems": [
    "Mlio.C05_text_chunk_independent_partial",
    "Mlio.C05_crlf_violated",
    "Mlio.C05_bom_violated",
    "Mlio.C05_crlf_any_chunk_size_violated"
   ],
   "note": "False in general: CRLF on a chunk edge, lines that start with a byte order mark. Proved for texts without CRLF or with blank-line skipping, in which no line starts with a byte order mark (except one in front of the text)."
  },
  {
   "property": "C06",
   "status": "partial",
   "theorems": [
    "Mlio.C06_every_text",
    "Mlio.C06_lines_partial",
    "Mlio.C06_nonblank_lines_partial",
    "Mlio.C06_reads_exact",
    "Mlio.C06_reads_past_end_violated"
   ],
   "note": "Lines exact for every text without lines that start with a byte order mark. The code reads one byte past the chunk when there is no terminator (proved, exact criterion)."
  },
  {
   "property": "C07",
   "status": "partial",
   "theorems": [
    "Mlio.C07_quoted_chunk_independent_partial",
    "Mlio.C07_comment_violated",
    "Mlio.C07_bom_violated"
   ],
   "note": "False with comments + CRLF and with byte order marks at the start of lines (witnesses); proved otherwise."
  },
  {
   "property": "C08",
   "status": "proved",
   "theorems": [
    "Mlio.C08_tokenize_inverts_quoting",
    "Mlio.C08_always_writable"
   ],
   "note": ""
  },
  {
   "property": "C09",
   "status": "partial",
   "theorems": [
    "Mlio.C09_csv_roundtrip_partial",
    "Mlio.C09_csv_roundtrip_chunked_partial",
    "Mlio.C09_quoted_roundtrip",
    "Mlio.C09_bom_violated",
    "Mlio.C09_sheet_roundtrip_partial"
   ],
   "note": "Proved without condition on the values when all fields are written in quotes (C09_quoted_roundtrip). With quotes only where needed: false for a first field that starts with a byte order mark (C09_bom_violated); proved otherwise, for tables without a blank-looking row when blank lines are skipped, and with comments, blank lines, line limits and field limits (C09_sheet_roundtrip_partial)."
  },
  {
   "property": "C10",
   "status": "proved",
   "theorems": [
    "Mlio.C10_rows_tokenize",
    "Mlio.C10_unquoted_counterexample"
   ],
   "note": ""
  },
  {
   "property": "C11",
   "status": "partial",
   "theorems": [
    "Mlio.C11_line_limit_exact",
    "Mlio.C11_line_limit_partial",
    "Mlio.C11_violated"
   ],
   "note": "The code is off by one (line with exactly max_line_length bytes rejected, CRLF counts); exact criterion proved."
  },
  {
   "property": "C12",
   "status": "proved",
   "theorems": [
    "Mlio.C12_field_limit"
   ],
   "note": ""
  },
  {
   "property": "C13",
   "status": "partial",
   "theorems": [
    "Mlio.C13_comment_blank_partial",
    "Mlio.C13_comment_blank_chunked_partial"
   ],
   "note": "Lines that start with a byte order mark excluded (they lose it)."
  },
  {
   "property": "C14",
   "status": "partial",
   "theorems": [
    "Mlio.C14_bom_at_start_partial",
    "Mlio.C14_bom_at_start_chunked_partial",
    "Mlio.C14_bom_inside_line_partial",
    "Mlio.C14_violated"
   ],
   "note": "Mark is stripped at the start of every row (witness); start-of-stream half and inside-line half proved."
  },
  {
   "property": "C15",
   "status": "proved",
   "theorems": [
    "Mlio.C15_parquet_arbitrary",
    "Mlio.C15_access_checked",
    "Mlio.C15_parquet_chunk_independent",
    "Mlio.C15_parquet_files"
   ],
   "note": "Statement over every byte string and chunking; files recognised exactly by the documented magic/metadata layout."
  },
  {
   "property": "C16",
   "status": "proved",
   "theorems": [
    "Mlio.C16_peek_does_not_consume",
    "Mlio.C16_peek_then_read"
   ],
   "note": "The base class shared by record, instance and data readers, over any derived reader."
  },
  {
   "property": "C17",
   "status": "proved",
   "theorems": [
    "Mlio.C17_range"
   ],
   "note": ""
  },
  {
   "property": "C18",
   "status": "proved",
   "theorems": [
    "Mlio.C18_shard",
    "Mlio.C18_partition"
   ],
   "note": ""
  },
  {
   "property": "C19",
   "status": "proved",
   "theorems": [
    "Mlio.C19_sample",
    "Mlio.C19_exact"
   ],
   "note": "Single precision product modelled exactly (round to nearest even)."
  },
  {
   "property": "C20",
   "status": "proved",
   "theorems": [
    "Mlio.C20_shuffle"
   ],
   "note": "Over every random engine whose draws are within the requested bound and whose shuffle is a permutation."
  },
  {
   "property": "C21",
   "status": "proved",
   "theorems": [
    "Mlio.C21_reproducible"
   ],
   "note": ""
  },
  {
   "property": "C22",
   "status": "proved",
   "theorems": [
    "Mlio.C22_reset_starts_fresh",
    "Mlio.C22_reshuffled_epoch"
   ],
   "note": "Core reader, all option combinations, batches; with reshuffling the next epoch is again a window shuffle."
  },
  {
   "property": "C23",
   "status": "proved",
   "theorems": [
    "Mlio.C23_options_compose"
   ],
   "note": ""
  },
  {
   "property": "C24",
   "status": "partial",
   "theorems": [
    "Mlio.C24_batches_partial",
    "Mlio.C24_batches_meaning",
    "Mlio.C24_pad_warn_violated",
    "Mlio.C24_pad_warn_partial",
    "Mlio.C24_batches_before_failure"
   ],
   "note": "pad_warn does not pad (witness); it behaves as none for every dataset (C24_pad_warn_partial); all other handlings proved."
  },
  {
   "property": "C25",
   "status": "proved",
   "theorems": [
    "Mlio.C25_order",
    "Mlio.C25_order_same_epochs",
    "Mlio.C25_order_batches"
   ],
   "note": "All interleavings; resets included. Assumptions on TBB and on the standard library are listed in Model/Pipeline.lean."
  },
  {
   "property": "C26",
   "status": "proved",
   "theorems": [
    "Mlio.C26_bounded",
    "Mlio.C26_sizes"
   ],
   "note": "Bounds on the two queues and on batches in flight behind the limiter; the source node may hold one more batch."
  },
  {
   "property": "C27",
   "status": "proved",
   "theorems": [
    "Mlio.C27_no_deadlock",
    "Mlio.C27_finite",
    "Mlio.C27_read_returns"
   ],
   "note": "No deadlock, a bound on every run between two calls, and exactly one outcome per call."
  },
  {
   "property": "C28",
   "status": "partial",
   "theorems": [
    "Mlio.C28_failing_batch_partial",
    "Mlio.C28_earlier_example_lost_violated"
   ],
   "note": "False in general: a queued example is lost when a later batch fails (witness). Proved: order, prefix, genuine errors, never a false end of data."
  },
  {
   "property": "C29",
   "status": "proved",
   "theorems": [
    "Mlio.C29_reset",
    "Mlio.C29_reset_returns",
    "Mlio.C29_reset_is_new"
   ],
   "note": ""
  },
  {
   "property": "C30",
   "status": "proved",
   "theorems": [
    "Mlio.C30_accepts_iff",
    "Mlio.C30_stores",
    "Mlio.C30_written_row",
    "Mlio.C30_reported",
    "Mlio.C30_reports"
   ],
   "note": "Over every field parser; the field parsers themselves are C37/C38."
  },
  {
   "property": "C31",
   "status": "partial",
   "theorems": [
    "Mlio.C31_good_batch",
    "Mlio.C31_serial_parallel_agree",
    "Mlio.C31_outcome",
    "Mlio.C31_padded_batch_partial",
    "Mlio.C31_padding_violated"
   ],
   "note": "False in one case: with pad handling the first padding position can keep values of a bad row (witness). Everything else proved."
  },
  {
   "property": "C32",
   "status": "partial",
   "theorems": [
    "Mlio.C32_bad_rows_partial",
    "Mlio.C32_open_quote_violated",
    "Mlio.C32_warning_violated"
   ],
   "note": "False for a row with an open quote (raises in every mode) and when warn_bad_instances is set (a skipped example becomes an error); witnesses given. Proved for all other rows."
  },
  {
   "property": "C33",
   "status": "partial",
   "theorems": [
    "Mlio.C33_unique_names_partial",
    "Mlio.C33_distinct_names_kept",
    "Mlio.C33_documented_renaming",
    "Mlio.C33_without_dedupe",
    "Mlio.C33_first_occurrence_violated"
   ],
   "note": "False in one case: a column whose name an earlier column was renamed to does not keep it (witness). Uniqueness, order, count and the documented renaming proved for all inputs."
  },
  {
   "property": "C34",
   "status": "partial",
   "theorems": [
    "Mlio.C34_columns",
    "Mlio.C34_columns_types_partial",
    "Mlio.C34_schema_partial",
    "Mlio.C34_written_row_partial",
    "Mlio.C34_equal_names",
    "Mlio.C34_equal_names_violated"
   ],
   "note": "Proved for different column names, including that the columns parsed and filled up afterwards are those of the schema (for all names); of several columns with one name an override by name reaches only the first (witness, and exact behaviour proved)."
  },
  {
   "property": "C35",
   "status": "partial",
   "theorems": [
    "Mlio.C35_data_rows_partial",
    "Mlio.C35_names",
    "Mlio.C35_names_written",
    "Mlio.C35_single_header_violated",
    "Mlio.C35_names_limit",
    "Mlio.C35_names_cut_violated"
   ],
   "note": "Proved for every dataset and history with readable headers, except has_single_header with names to be read and a first store without header row (witness). The names are those of the header, cut to max_field_length (C35_names_limit), whatever is to be done with fields that are too long: longer names are lost and may become equal (C35_names_cut_violated)."
  },
  {
   "property": "C36",
   "status": "partial",
   "theorems": [
    "Mlio.C36_no_data_partial",
    "Mlio.C36_unreadable_row_partial",
    "Mlio.C36_equal_names_partial",
    "Mlio.C36_column_count_violated",
    "Mlio.C36_override_violated",
    "Mlio.C36_no_rows_violated",
    "Mlio.C36_header_violated"
   ],
   "note": "False in general: a second attempt can differ from the first (four witnesses). Proved for no data, an unreadable first field and equal names."
  },
  {
   "property": "C37",
   "status": "proved",
   "theorems": [
    "Mlio.C37_inferred_type_parses",
    "Mlio.C37_integers_are_inferred",
    "Mlio.C37_exact"
   ],
   "note": "Over every floating point library."
  },
  {
   "property": "C38",
   "status": "proved",
   "theorems": [
    "Mlio.C38_exact",
    "Mlio.C38_out_of_range",
    "Mlio.C38_overflow_is_not_exact",
    "Mlio.C38_columns",
    "Mlio.C38_other_columns"
   ],
   "note": "Model of absl::SimpleAtoi included. Overflow is also reported for some texts that are not integers (witness)."
  },
  {
   "property": "C39",
   "status": "partial",
   "theorems": [
    "Mlio.C39_keys_partial",
    "Mlio.C39_zero_dimension_violated"
   ],
   "note": "False when a dimension other than the first of a row is zero: division by zero (witness)."
  },
  {
   "property": "C40",
   "status": "partial",
   "theorems": [
    "Mlio.C40_batch_partial",
    "Mlio.C40_bad",
    "Mlio.C40_no_undefined_behaviour",
    "Mlio.C40_outcome",
    "Mlio.C40_invalid_key_violated",
    "Mlio.C40_row_drift_violated",
    "Mlio.C40_padding_violated"
   ],
   "note": "False in the pad modes when a bad instance has values for a sparse attribute (two witnesses: the whole batch fails; rows drift) and, for dense attributes, when the last instance is bad (its values stay in the padding, witness). Proved for all other batches, serial and parallel decoding under every schedule, and that nothing is undefined for any batch."
  },
  {
   "property": "C41",
   "status": "partial",
   "theorems": [
    "Mlio.C41_accepted_iff_partial",
    "Mlio.C41_name_clash_violated"
   ],
   "note": "False when a label and a feature end up with the same name (witness). Equivalence proved otherwise."
  },
  {
   "property": "C42",
   "status": "partial",
   "theorems": [
    "Mlio.C42_in_bounds_partial",
    "Mlio.C42_default_strides",
    "Mlio.C42_stride_count",
    "Mlio.C42_wraparound_violated",
    "Mlio.C42_negative_stride_violated",
    "Mlio.C42_scalar_violated",
    "Mlio.C42_given_strides_partial",
    "Mlio.C42_smallest_stride_violated",
    "Mlio.C42_empty_violated",
    "Mlio.C42_stride_overflow_violated"
   ],
   "note": "False for sizes that wrap around, negative strides, the smallest stride, scalars and empty tensors with a stride above one (witnesses); proved within the representable range."
  },
  {
   "property": "C43",
   "status": "proved",
   "theorems": [
    "Mlio.C43_accepted_iff",
    "Mlio.C43_lookup",
    "Mlio.C43_equal_hash",
    "Mlio.C43_find_feature"
   ],
   "note": ""
  },
  {
   "property": "C44",
   "status": "proved",
   "theorems": [
    "Mlio.C44_subslice",
    "Mlio.C44_subslice_from",
    "Mlio.C44_first",
    "Mlio.C44_last",
    "Mlio.C44_range"
   ],
   "note": ""
  },
  {
   "property": "C45",
   "status": "partial",
   "theorems": [
    "Mlio.C45_cursor_partial",
    "Mlio.C45_file_cursor",
    "Mlio.C45_large_seek_violated",
    "Mlio.C45_large_read_violated"
   ],
   "note": "False for seeks and reads of 2^63 bytes and more (witnesses); proved for every sequence of calls below that."
  },
  {
   "property": "C46",
   "status": "partial",
   "theorems": [
    "Mlio.C46_held_violated",
    "Mlio.C46_latin1_partial",
    "Mlio.C46_latin1_violated",
    "Mlio.C46_latin1_named",
    "Mlio.C46_utf8",
    "Mlio.C46_detect",
    "Mlio.C46_convert_partial",
    "Mlio.C46_unicode_partial",
    "Mlio.C46_short_violated"
   ],
   "note": "False for a detected encoding other than UTF-8, a stream that cannot seek and at most four bytes in all: valid text is rejected (witness). What a converter holds back at the end of the text is lost, because it is never told that the text ends (C46_held_violated); the C library of the sandbox was seen to hold back the last letter of a text in CP1258, for example. Text that is declared as Latin-1 under the name 8859_1 is not converted (C46_latin1_violated), unless all of it is ASCII (C46_latin1_partial); under other names it is (C46_latin1_named). Proved for everything else, for every converter that satisfies the stated laws (iconv is not modelled; UTF-16 and UTF-32 converters are given and proved lawful). Latin-1 is passed on unconverted, as the code declares."
  },
  {
   "property": "C47",
   "status": "partial",
   "theorems": [
    "Mlio.C47_contents_partial",
    "Mlio.C47_damaged",
    "Mlio.C47_until_zero_partial",
    "Mlio.C47_blocks_partial",
    "Mlio.C47_empty_member_violated",
    "Mlio.C47_short_read_violated",
    "Mlio.C47_count_violated"
   ],
   "note": "False for files with an empty member before others, for short reads of the compressed stream that cover only header bytes (a read gives zero bytes early), and for destinations of 4 GiB and more (the count returned is wrong): witnesses. Proved for every format: no spurious error, the bytes are a prefix of the contents, reading on past zeros gives all of it, damaged files always end in an error, and reading until zero gives all for files of which every block and member that the inner stream (of any kind) delivers stands for something. Deflate itself is a parameter."
  },
  {
   "property": "C48",
   "status": "partial",
   "theorems": [
    "Mlio.C48_channels_partial",
    "Mlio.C48_names_violated",
    "Mlio.C48_exclusive_partial",
    "Mlio.C48_reopen_partial",
    "Mlio.C48_reopen_violated",
    "Mlio.C48_number_violated",
    "Mlio.C48_read"
   ],
   "note": "False if a stream is constructed between close and the destructor of another one: closing again gives the channel away and a FIFO is reused (witness), and for fifo_id 2^64-1 and 2^64-2, which lock the channel for ever (theorem for all later histories). Also false for a channel that is named by two different paths, which are compared byte by byte (C48_names_violated). Proved for all other histories, for paths and for channels (C48_channels_partial). Not modelled: the map insertion that is not synchronised, counters that reach 2^63."
  },
  {
   "property": "C49",
   "status": "partial",
   "theorems": [
    "Mlio.C49_whole_store_partial",
    "Mlio.C49_empty_violated"
   ],
   "note": "False for an empty seekable store that is not memory mapped: the loop does not end (witness). Proved for every other store and read schedule."
  },
  {
   "property": "C50",
   "status": "proved",
   "theorems": [
    "Mlio.C50_payloads_intact",
    "Mlio.C50_all_formats",
    "Mlio.C50_memory_invisible"
   ],
   "note": "Heap level model with reference counts and moving blocks; also proves that the value level reader of C01-C15 is what the heap level one computes."
  },
  {
   "property": "C51",
   "status": "partial",
   "theorems": [
    "Mlio.C51_strict_weak",
    "Mlio.C51_numbers_partial",
    "Mlio.C51_words",
    "Mlio.C51_blanks",
    "Mlio.C51_leading_zeros_violated",
    "Mlio.C51_listing",
    "Mlio.C51_files"
   ],
   "note": "The comparison is a strict weak ordering on all strings (C51_strict_weak). Names without digits and white space are ordered as strcmp does (C51_words; with signed characters a longer name can come first). White space that does not split a number makes no difference (C51_blanks). Names with the same prefix are ordered by the following number if it has no leading zeros (C51_numbers_partial); with leading zeros the digits are compared as a fraction, so a09 sorts before a1 (C51_leading_zeros_violated). A listing over any number of pages and URIs is the sorted permutation of the matching objects, once per URI (C51_listing); files are those of the traversal that pass the filters (C51_files). fts, fnmatch and std::sort are assumed to do what they document; the order of fts within a directory is given by the same comparison."
  },
  {
   "property": "C52",
   "status": "proved",
   "theorems": [
    "Mlio.C52_compression",
    "Mlio.C52_object_uri",
    "Mlio.C52_prefix_uri",
    "Mlio.C52_file_path"
   ],
   "note": "Exact characterisations over all byte strings."
  },
  {
   "property": "C53",
   "status": "partial",
   "theorems": [
    "Mlio.C53_sketch_partial",
    "Mlio.C53_sketch_portable",
    "Mlio.C53_set",
    "Mlio.C53_range",
    "Mlio.C53_merge_partial",
    "Mlio.C53_clear",
    "Mlio.C53_width_partial",
    "Mlio.C53_width_violated",
    "Mlio.C53_clz_violated",
    "Mlio.C53_merge_violated",
    "Mlio.C53_merge_range_violated"
   ],
   "note": "False for merging (registers are combined with \"or\": witness, and the range is left) and, with compilers that have __builtin_clz, for values whose hash has no one after the bucket (undefined behaviour: witness). Widths of 32 and more are undefined behaviour (theorem). Proved: for every width and every sequence the registers are those of the set of values, both variants agree, range, clearing, refusal of different widths, and exactly when merging is right. The hash function is a parameter here (it is XXH32: C99); the floating point estimate is a function of the registers and not modelled."
  },
  {
   "property": "C54",
   "status": "partial",
   "theorems": [
    "Mlio.C54_counts_partial",
    "Mlio.C54_batching",
    "Mlio.C54_capture_partial",
    "Mlio.C54_mean_partial",
    "Mlio.C54_length_partial",
    "Mlio.C54_shortest_partial",
    "Mlio.C54_reported_partial",
    "Mlio.C54_mean_violated",
    "Mlio.C54_length_violated",
    "Mlio.C54_capture_violated",
    "Mlio.C54_shortest_violated",
    "Mlio.C54_finite_violated",
    "Mlio.C54_padding_violated"
   ],
   "note": "Counts, extremes, sketches, sample, captured values and example value do not depend on batching and are those of the whole column (exact rational arithmetic in place of doubles). False for: the mean if an example has no number, the average length with empty cells, captured counts from the limit on, the shortest length with empty cells, numeric_finite_count as exported with infinite numbers, padded examples: witnesses for each."
  },
  {
   "property": "C55",
   "status": "partial",
   "theorems": [
    "Mlio.C55_resize_partial",
    "Mlio.C55_growing",
    "Mlio.C55_resize_memory_block_partial",
    "Mlio.C55_allocate",
    "Mlio.C55_shrink_violated"
   ],
   "note": "False for shrinking a hybrid block that uses the file (witness). Everything else proved."
  },
  {
   "property": "C56",
   "status": "partial",
   "theorems": [
    "Mlio.C56_resize_partial",
    "Mlio.C56_overflow_violated",
    "Mlio.C56_defined_partial",
    "Mlio.C56_narrowing_violated",
    "Mlio.C56_crop_partial",
    "Mlio.C56_too_small",
    "Mlio.C56_error_violated",
    "Mlio.C56_alpha_violated"
   ],
   "note": "All image and output sizes. False when the requested size times the longer edge exceeds 31 bits (undefined behaviour), for requested sizes of 2^32 and more, for RGB conversion of four channel images (nothing is written), and too small images raise invalid_argument instead of the bad instance error: witnesses (the log messages of images that cannot be resized are C91_resize_violated). Proved otherwise."
  },
  {
   "property": "C57",
   "status": "partial",
   "theorems": [
    "Mlio.C57_alive_partial",
    "Mlio.C57_quiet_partial",
    "Mlio.C57_next_violated"
   ],
   "note": "False for assignments through the handle that is overwritten, such as p = p->next: use after free (witness). Proved for every interleaving of all other race free operations, with counting and destruction as separate steps and destructors that drop further handles."
  },
  {
   "property": "C58",
   "status": "partial",
   "theorems": [
    "Mlio.C58_wrap",
    "Mlio.C58_accepted_partial",
    "Mlio.C58_rejected",
    "Mlio.C58_strings",
    "Mlio.C58_dlpack",
    "Mlio.C58_export_partial",
    "Mlio.C58_size_violated"
   ],
   "note": "All formats, item sizes and data types. False for exporting the data type size to Python (unsigned elements are declared signed): witness; the format n (ssize_t) is refused."
  },
  {
   "property": "C59",
   "status": "partial",
   "theorems": [
    "Mlio.C59_consistent_violated",
    "Mlio.C59_rejects_partial"
   ],
   "note": "The constructor does not check consistency and can dereference null (witness); the checks it does make are proved."
  },
  {
   "property": "C60",
   "status": "proved",
   "theorems": [
    "Mlio.C60_stream",
    "Mlio.C60_listing"
   ],
   "note": "For an object that does not change while it is read; service errors other than an unsatisfiable range are not modelled."
  },
  {
   "property": "C61",
   "status": "partial",
   "theorems": [
    "Mlio.C61_retry_partial",
    "Mlio.C61_retry_violated",
    "Mlio.C61_retry_garbled_violated"
   ],
   "note": "False in general: after a stream error the reader can access released memory or return garbled data (two witnesses). Proved when no chunk was held."
  },
  {
   "property": "C62",
   "status": "proved",
   "theorems": [
    "Mlio.C62_coo_constructor"
   ],
   "note": ""
  },
  {
   "property": "C63",
   "status": "proved",
   "theorems": [
    "Mlio.C63_inferred_schema",
    "Mlio.C63_clash"
   ],
   "note": ""
  },
  {
   "property": "C64",
   "status": "partial",
   "theorems": [
    "Mlio.C64_from_numpy_partial",
    "Mlio.C64_strided_partial",
    "Mlio.C64_item_violated",
    "Mlio.C64_reversed_violated",
    "Mlio.C64_broadcast_violated",
    "Mlio.C64_step_violated",
    "Mlio.C64_to_numpy",
    "Mlio.C64_round_trip_partial",
    "Mlio.C64_dlpack"
   ],
   "note": "Proved for tensors exported to NumPy and DLPack, and for NumPy arrays of eight byte elements that lie in C order or have non-negative strides. False for other item sizes (strides are divided by 8), reversed, broadcast and stepped arrays: witnesses."
  },
  {
   "property": "C65",
   "status": "partial",
   "theorems": [
    "Mlio.C65_padded_partial",
    "Mlio.C65_others_partial"
   ],
   "note": "False for RGB conversion of four channel images (C56_alpha_violated). Proved for every batch the reader supports (Spec.Supported: 1, 3 or 4 channels, sizes within int, no RGB conversion of four channel images). OpenCV decoding and resizing are parameters with the contract CvOk. A failed resize fails with fmt::format_error whatever handling of bad examples is chosen: C91_resize_violated."
  },
  {
   "property": "C66",
   "status": "partial",
   "theorems": [
    "Mlio.C66_text_lines_partial"
   ],
   "note": "Composition of the models of all stages. Missing: the files for which stages are known to be wrong (text with CRLF that does not fit into a chunk and is not in memory: C05_crlf_any_chunk_size_violated; lines that start with a byte order mark: C14_violated; at most four bytes of UTF-16 or UTF-32 in a stream that cannot seek: C46_short_violated; UTF-16 little endian that starts with the character zero), and warnings. pad_warn is left out: it does what none does (C24_pad_warn_partial). Dataset of fewer than 2^64-1 lines."
  },
  {
   "property": "C67",
   "status": "partial",
   "theorems": [
    "Mlio.C67_csv_rows_partial"
   ],
   "note": "Composition of the models of all stages. Comments, blank lines, line limits, field limits and rows that are not well-formed are covered, the latter for every handling of bad rows. Missing: the files for which stages are known to be wrong (Spec.Sheet.Good and Spec.Stored: byte order marks at the start of lines, lines within two bytes of the limit, CRLF over chunk boundaries), a first file without header under has_single_header (C35_single_header_violated), rows that the tokenizer rejects (C32). pad_warn for the last batch behaves as none (C24_pad_warn_partial). Dataset of fewer than 2^64-1 rows."
  },
  {
   "property": "C68",
   "status": "partial",
   "theorems": [
    "Mlio.C68_messages_partial",
    "Mlio.C68_schema"
   ],
   "note": "Composition of the models of all stages; parsing of messages is a parameter, which C112_dataset_partial replaces by the wire format. Missing: messages with clashing names (C41_name_clash_violated), in the pad modes bad messages with values for sparse attributes and the row behind the good ones when the last message is bad (C40 witnesses). pad_warn is left out: it does what none does (C24_pad_warn_partial). Dataset of fewer than 2^64-1 messages."
  },
  {
   "property": "C69",
   "status": "partial",
   "theorems": [
    "Mlio.C69_construct",
    "Mlio.C69_opens_partial",
    "Mlio.C69_errors",
    "Mlio.C69_records_partial",
    "Mlio.C69_lost_records_violated"
   ],
   "note": "False for gzip files with an empty member before others or blocks that stand for nothing: the stream reports its end early and records are lost without an error (witness). Proved for every store otherwise (Spec.Audible), for reads below 4 GiB of compressed and below 2^63 of other contents."
  },
  {
   "property": "C70",
   "status": "proved",
   "theorems": [
    "Mlio.C70_session",
    "Mlio.C70_peek",
    "Mlio.C70_bytes",
    "Mlio.C70_reset",
    "Mlio.C70_no_deadlock"
   ],
   "note": "For the interleaving semantics of the pipeline (C25-C29). The byte count is a natural number (no wrap at 2^64)."
  },
  {
   "property": "C71",
   "status": "partial",
   "theorems": [
    "Mlio.C71_no_race",
    "Mlio.C71_first_instance_partial",
    "Mlio.C71_attempts_partial",
    "Mlio.C71_stable",
    "Mlio.C71_decode_has_schema",
    "Mlio.C71_undisturbed_partial",
    "Mlio.C71_no_deadlock"
   ],
   "note": "For any instance reader that gives instances and then the end or an error in every epoch, and any infer_schema that gives a schema or an error for an instance. Missing: readers that do not fail for good, which are those that sample unreadable data, see C103."
  },
  {
   "property": "C72",
   "status": "partial",
   "theorems": [
    "Mlio.C72_no_race_partial",
    "Mlio.C72_state_violated",
    "Mlio.C72_store_violated"
   ],
   "note": "False for state_, which read_example and reset read without the lock while the background thread may write it (witness), and for the name of a data store, which decoders compute for bad rows (C72_store_violated). Proved for all other members, for every schedule. What the code uses is taken down by hand in Model/Races.lean; TBB synchronizes its own objects."
  },
  {
   "property": "C73",
   "status": "partial",
   "theorems": [
    "Mlio.C73_no_fault_partial",
    "Mlio.C73_new_thread_blocks",
    "Mlio.C73_reported",
    "Mlio.C73_mask_violated",
    "Mlio.C73_hang_violated",
    "Mlio.C73_reset_violated",
    "Mlio.C73_terminates_violated"
   ],
   "note": "False: if the thread cannot be created all signals stay blocked in the caller, the next call waits for ever, and reset or destruction terminates the process (three theorems, for every dataset). Proved: the call reports the error; without failures the mask is kept in every execution."
  },
  {
   "property": "C74",
   "status": "partial",
   "theorems": [
    "Mlio.C74_text_partial",
    "Mlio.C74_csv_partial",
    "Mlio.C74_messages_partial"
   ],
   "note": "Composition of C69 (stores, gzip) with C66, C67 and C68. Missing: the cases those leave out (gzip blocks that stand for nothing, compressed UTF-16/32 of at most four bytes, CRLF over chunk boundaries, text of 2 GiB and more, and the deviations of C40, C41 and C67), each with a witness at its property."
  },
  {
   "property": "C75",
   "status": "partial",
   "theorems": [
    "Mlio.C75_text_cut_partial",
    "Mlio.C75_csv_cut_partial",
    "Mlio.C75_messages_cut_partial",
    "Mlio.C75_truncated_violated",
    "Mlio.C75_dataset",
    "Mlio.C75_text_partial",
    "Mlio.C75_csv_partial",
    "Mlio.C75_messages_partial",
    "Mlio.C75_text_garbled_partial",
    "Mlio.C75_csv_garbled_partial"
   ],
   "note": "False for gzip files of several members that were cut in the header of a later member: they are read as if they ended there (witness). C75_dataset is for every core reader that fails after some instances. The theorems for text, CSV and RecordIO-protobuf have the hypotheses of C74 about the stores in front, and are for a store that cannot be opened, a RecordIO file damaged behind some frames, and a gzip file that was cut or damaged (if what is left of a member or block when the file ends stands for something), and text in UTF-16 or UTF-32 that is not well formed behind some place (C75_text_garbled_partial, C75_csv_garbled_partial). pad_warn behaves as none (C24). Missing: what C74 leaves out."
  },
  {
   "property": "C76",
   "status": "partial",
   "theorems": [
    "Mlio.C76_read_no_deadlock",
    "Mlio.C76_read_returns",
    "Mlio.C76_finite",
    "Mlio.C76_reset_returns_partial",
    "Mlio.C76_reset_hangs_violated",
    "Mlio.C76_releasing",
    "Mlio.C76_reset_returns_silent",
    "Mlio.C76_hangs_violated"
   ],
   "note": "False for reset (and destruction): it keeps the interpreter lock while it joins the background thread, so it never returns if a running task is going to log a message (theorem for every dataset, witness with the settings of the Python package). Proved: reading always returns; reset returns if no running task logs; there is no endless run. analyze_dataset, the other call that keeps the lock, is C101."
  },
  {
   "property": "C77",
   "status": "partial",
   "theorems": [
    "Mlio.C77_instance_open_violated",
    "Mlio.C77_cause_violated",
    "Mlio.C77_raised_partial",
    "Mlio.C77_handlers",
    "Mlio.C77_store_errors",
    "Mlio.C77_other_errors",
    "Mlio.C77_instance_errors",
    "Mlio.C77_schema_errors",
    "Mlio.C77_bad_cell",
    "Mlio.C77_cut_message_violated",
    "Mlio.C77_cut_cell_violated",
    "Mlio.C77_foreign_cause"
   ],
   "note": "False if a message is not text: a cell is cut after 64 bytes, or at max_field_length, in the middle of a character, and UnicodeDecodeError is raised instead (two witnesses). False for data stores that cannot be opened: if missing or forbidden the DataReaderError has no cause (C77_cause_violated), and other errors of opening an image are passed on as they are (C77_instance_open_violated). Proved for all chains of errors whose messages are text, for the class hierarchy, and for all places of the library that nest errors."
  },
  {
   "property": "C78",
   "status": "partial",
   "theorems": [
    "Mlio.C78_scipy_partial",
    "Mlio.C78_rank",
    "Mlio.C78_vector_violated",
    "Mlio.C78_scipy_in_range",
    "Mlio.C78_wrapped_index_violated",
    "Mlio.C78_reader_partial",
    "Mlio.C78_from_scipy_partial",
    "Mlio.C78_stepped_data_violated",
    "Mlio.C78_tf_partial",
    "Mlio.C78_zero_violated"
   ],
   "note": "False for vectors (asking for the second coordinate vector ends the process, theorem for all of them), for TensorFlow if a value is zero (refused, theorem for all of them), for out-of-range indices above 32 bits (moved) and for matrices whose data is a strided view (wrong values). Proved for everything else with two dimensions, and for features of RecordIO-protobuf examples."
  },
  {
   "property": "C79",
   "status": "partial",
   "theorems": [
    "Mlio.C79_strings",
    "Mlio.C79_strings_refused",
    "Mlio.C79_second_read_violated",
    "Mlio.C79_cut_cell_violated",
    "Mlio.C79_columns",
    "Mlio.C79_frame_partial",
    "Mlio.C79_sparse",
    "Mlio.C79_rows_violated",
    "Mlio.C79_mixed_violated",
    "Mlio.C79_negative_stride_violated"
   ],
   "note": "False for the second read of an array of strings with a bad one (memory that was never written is used, theorem for all of them), for cells cut in the middle of a character, and for features with several values per instance (witnesses). Proved: all arrays of texts; the columns of all examples with dense features; one row per instance if each feature has one value per instance; everything else is refused."
  },
  {
   "property": "C80",
   "status": "partial",
   "theorems": [
    "Mlio.C80_files_partial",
    "Mlio.C80_framed_partial",
    "Mlio.C80_unreadable",
    "Mlio.C80_damaged",
    "Mlio.C80_truncated_violated",
    "Mlio.C80_missing",
    "Mlio.C80_empty_file_violated",
    "Mlio.C80_schema"
   ],
   "note": "False for empty files that are not memory mapped and empty objects: the reader does not return (theorem for all of them); and for gzip files cut in their header, which are taken for bad images (witness). Proved for all other datasets of images below 2 GiB that the reader supports (Spec.Supported of C65), as files and as RecordIO, over all modelled data stores, options, schedules and epochs; and for all data stores whatever that an epoch ends only if they could be loaded: stores that cannot be opened and gzip files that were cut or damaged behind some contents are never taken for bad images. pad_warn for the last batch behaves as none (C24); OpenCV is a parameter with the contract CvOk."
  },
  {
   "property": "C81",
   "status": "partial",
   "theorems": [
    "Mlio.C81_store_partial",
    "Mlio.C81_short_partial",
    "Mlio.C81_record_partial",
    "Mlio.C81_read_at_partial",
    "Mlio.C81_read_all",
    "Mlio.C81_refused",
    "Mlio.C81_short_read_violated",
    "Mlio.C81_negative_seek_violated",
    "Mlio.C81_negative_read_violated",
    "Mlio.C81_negative_seek_file_violated"
   ],
   "note": "False for negative numbers: Seek to a negative position succeeds, on a memory stream (records, memory stores, mapped files) the next read is from in front of the data, on a file it goes to the end (theorem for all negative positions); a failed Read of a negative number of bytes has the same effect. False for positioned reads of files of which the operating system delivers less at once than asked for: the answer is short. Proved for all data stores that are not compressed, all records, and all sequences of calls with arguments that are not negative; short reads are allowed unless the operating system delivers whole reads. Arrow is trusted, of which only the default ReadAt (Seek, then Read) is written down."
  },
  {
   "property": "C82",
   "status": "partial",
   "theorems": [
    "Mlio.C82_listed_partial",
    "Mlio.C82_empty_violated",
    "Mlio.C82_same_partial",
    "Mlio.C82_same_ordered_partial",
    "Mlio.C82_order_violated",
    "Mlio.C82_objects_partial",
    "Mlio.C82_backslash_violated"
   ],
   "note": "The list is complete and naturally ordered, for all trees below at least one path (C82_listed_partial). With an empty list of paths the behaviour is undefined (C82_empty_violated): a small C program with the same calls of fts crashed with the C library of the sandbox, GNU 2.39. That it is the same for every enumeration is false for names in a directory that differ in white space only, which tie (C82_order_violated); proved for names without white space and, more generally, wherever no two names tie. A file whose name ends in a backslash makes the whole listing fail (C82_backslash_violated). Links to nothing and directories that contain themselves are passed over by the code. fts and qsort of the C library are trusted, of which the traversal is written down."
  },
  {
   "property": "C83",
   "status": "partial",
   "theorems": [
    "Mlio.C83_equal_partial",
    "Mlio.C83_hash",
    "Mlio.C83_python_violated",
    "Mlio.C83_version_violated",
    "Mlio.C83_compression_violated"
   ],
   "note": "False for data stores written in Python: any two of them are equal, because the string that id refers to is shared (theorem for all names); for objects whose key ends with @version; across compressions and classes (theorem for all paths). Proved for two data stores of the same class of the library and the same compression, objects without @ in the version (or in the URI, without version). Two paths of one file are not claimed to be equal."
  },
  {
   "property": "C84",
   "status": "partial",
   "theorems": [
    "Mlio.C84_open_partial",
    "Mlio.C84_opens_partial",
    "Mlio.C84_no_stream_violated",
    "Mlio.C84_stream_violated",
    "Mlio.C84_obeys_violated",
    "Mlio.C84_reader_partial",
    "Mlio.C84_reader_violated"
   ],
   "note": "False for streams: no method of a stream class written in Python is ever called (theorem for all classes): the names are given to the pybind11 macro in quotes, and read(buffer) gives the interpreter lock away before it calls the interpreter. False for data stores whose open_read returns None, which is used as a null pointer (C84_no_stream_violated). Proved for other open_read of data stores (C84_opens_partial) and, C84_reader_partial, for all calls of readers but exceptions of reset and num_bytes_read, which end the process, as those of the id of a data store do (C84_reader_violated). pybind11 is trusted; of it the lookup of overridden methods is written down."
  },
  {
   "property": "C85",
   "status": "partial",
   "theorems": [
    "Mlio.C85_base_partial",
    "Mlio.C85_base_violated",
    "Mlio.C85_nan_partial",
    "Mlio.C85_numbers",
    "Mlio.C85_nan_violated",
    "Mlio.C85_nan_space_violated"
   ],
   "note": "False of number_base (theorem for all bases but 10: it has no effect), of nan_values that are numbers (they keep their values) and of nan_values that begin or end with white space (they never match). Proved for base 10 and for all other nan_values, any fields."
  },
  {
   "property": "C86",
   "status": "partial",
   "theorems": [
    "Mlio.C86_held",
    "Mlio.C86_released",
    "Mlio.C86_own_only",
    "Mlio.C86_foreign",
    "Mlio.C86_throws",
    "Mlio.C86_closed",
    "Mlio.C86_names_violated",
    "Mlio.C86_names_partial",
    "Mlio.C86_usable_partial",
    "Mlio.C86_usable_violated",
    "Mlio.C86_exec_partial",
    "Mlio.C86_exec_violated"
   ],
   "note": "Proved in full for descriptors and mappings, and for the rest of the process. False for names: a failed ftruncate leaves the temporary file in /tmp for ever (theorem). False for blocks: an mremap that fails after the file was cut off leaves a block larger than its file (theorem); otherwise proved. False for inheritance: the descriptor of a file-backed block is inherited (theorem); proved for all others."
  },
  {
   "property": "C87",
   "status": "partial",
   "theorems": [
    "Mlio.C87_construct_partial",
    "Mlio.C87_construct_parser",
    "Mlio.C87_assign_partial",
    "Mlio.C87_assign_any_partial",
    "Mlio.C87_assign_parser",
    "Mlio.C87_frame",
    "Mlio.C87_refused",
    "Mlio.C87_get_partial",
    "Mlio.C87_get_parser",
    "Mlio.C87_csv_reader",
    "Mlio.C87_image_reader",
    "Mlio.C87_csv_reader_default",
    "Mlio.C87_other_readers",
    "Mlio.C87_last_value_partial",
    "Mlio.C87_warn_violated",
    "Mlio.C87_encoding_violated",
    "Mlio.C87_none_violated",
    "Mlio.C87_missing_store_violated",
    "Mlio.C87_image_violated",
    "Mlio.C87_parser_params_violated",
    "Mlio.C87_delimiter_violated"
   ],
   "note": "Proved for all histories, classes and options except: warn_bad_instances is no attribute; the attribute encoding takes no name and cannot be read when set; None as documented default of containers is refused; ImageReaderParams() is refused although all arguments have defaults; the documented argument parser_params does not exist; None among the data stores is accepted, and the reader then dereferences a null pointer (C87_missing_store_violated); characters beyond ASCII are accepted as delimiter but the reader compares bytes (each a theorem). The conversions of pybind11 are described, not modelled from source; left out are whole numbers as sample ratio and numbers of floating point that a float cannot hold."
  },
  {
   "property": "C88",
   "status": "partial",
   "theorems": [
    "Mlio.C88_careful_partial",
    "Mlio.C88_given",
    "Mlio.C88_name",
    "Mlio.C88_number",
    "Mlio.C88_id_violated",
    "Mlio.C88_pipe_violated",
    "Mlio.C88_table_violated",
    "Mlio.C88_python_violated",
    "Mlio.C88_open_violated",
    "Mlio.C88_open"
   ],
   "note": "Proved: no race in any schedule for files and unversioned objects; and for all native data stores in careful programs (computed names asked for before sharing, each pipe opened from one thread on a channel known before). The names given and the numbers used are right in every schedule of single reads and writes. Opening data stores other than pipes never races unless messages of the level info are logged (C88_open, C88_open_violated). False otherwise, each a theorem: the first calls of id of a data store in memory or of a versioned object race, also from the decoders of one reader (C72_store_violated); opening one pipe from two threads, or pipes on two new channels, races; data stores written in Python share a string that is read without the lock of the interpreter."
  },
  {
   "property": "C89",
   "status": "partial",
   "theorems": [
    "Mlio.C89_csv_schema_partial",
    "Mlio.C89_stores_partial",
    "Mlio.C89_text_partial",
    "Mlio.C89_csv_partial",
    "Mlio.C89_messages_partial"
   ],
   "note": "Proved for text line, CSV and RecordIO-protobuf readers over data stores as C74 has them, for every sequence of calls and every schedule: what read_example and peek_example return in each epoch, the schema, num_bytes_read at the end (text), no race, no deadlock. For CSV also that the columns that are parsed are those of the schema that the reader infers from its header and first row (C89_csv_schema_partial). Missing: an empty list of paths (C82), what C66-C69 and C74 leave out, mostly because the code is wrong there; pad_warn (behaves as none, C24); for CSV equal column names (C34) and a schema from a second attempt (C36)."
  },
  {
   "property": "C90",
   "status": "partial",
   "theorems": [
    "Mlio.C90_row",
    "Mlio.C90_pad",
    "Mlio.C90_stops_partial",
    "Mlio.C90_parallel_partial",
    "Mlio.C90_each_violated",
    "Mlio.C90_level",
    "Mlio.C90_delivered_partial",
    "Mlio.C90_level_later_violated",
    "Mlio.C90_last_batch",
    "Mlio.C90_python_partial",
    "Mlio.C90_python_violated"
   ],
   "note": "Proved: the exact messages of every batch when bad rows are left out; when the example is skipped or an error is raised, those up to the first bad row (without parallel decoding), and up to the order and to which blocks were reached (with it); levels and handler; last batches. False, with witnesses: with skip and skip_warn only the first bad row of an example is told (C90_each_violated); the level when the reader is made decides about bad rows for good (C90_level_later_violated); a value that is cut at 64 bytes inside a character loses its warning in Python (C90_python_violated). Rows that the tokenizer rejects are left out (C32). RecordIO-protobuf and image readers are C91."
  },
  {
   "property": "C91",
   "status": "partial",
   "theorems": [
    "Mlio.C91_proto_partial",
    "Mlio.C91_sparseness_violated",
    "Mlio.C91_image_partial",
    "Mlio.C91_resize_violated"
   ],
   "note": "Proved for examples that are decoded serially: the exact list of messages, and that each is true. False, with witnesses: a message about sparseness says the opposite of what is the case, for every schema and instance (C91_sparseness_violated); if an image cannot be resized the message has a format that does not suit its arguments, so that format_error is thrown in all modes and nothing is skipped or padded (C91_resize_violated). The texts themselves are not modelled, only what they say."
  },
  {
   "property": "C92",
   "status": "partial",
   "theorems": [
    "Mlio.C92_place_partial",
    "Mlio.C92_said",
    "Mlio.C92_recordio_partial",
    "Mlio.C92_split_violated",
    "Mlio.C92_listing",
    "Mlio.C92_listing_code_partial",
    "Mlio.C92_listing_code_violated",
    "Mlio.C92_named",
    "Mlio.C92_open",
    "Mlio.C92_s3",
    "Mlio.C92_s3_number",
    "Mlio.C92_instance_violated"
   ],
   "note": "Proved for every state that reads and resets lead to, and end to end for RecordIO files. False for split records whose parts are in the wrong order: the offending part has been counted, so the message names the record behind it, which may be in order or not exist (C92_split_violated); a dataset that ends inside a split record is undefined behaviour (C04_truncated_violated). Errors of list_files name the path (C92_listing), but with two paths in error the code can be that of the other (C92_listing_code_partial, C92_listing_code_violated). C92_s3_number is about the numbers of the other errors of S3. C92_named, C92_open and C92_s3 are about the texts: each names the data store, and missing, forbidden and other data stores are told apart. False for data stores that are instances as a whole (images): errors of opening other than missing or forbidden are passed on and name nothing (C92_instance_violated). Header rows of CSV files are not records in this sense."
  },
  {
   "property": "C93",
   "status": "partial",
   "theorems": [
    "Mlio.C93_read_partial",
    "Mlio.C93_resumed_partial",
    "Mlio.C93_open_fails",
    "Mlio.C93_gone",
    "Mlio.C93_replaced_violated"
   ],
   "note": "Proved if the version is named and not removed for good, or the object is left alone. False if an object is replaced while it is read without a version: the requests carry no entity tag, so the old beginning and the new rest are put together without an error (C93_replaced_violated)."
  },
  {
   "property": "C94",
   "status": "partial",
   "theorems": [
    "Mlio.C94_client_partial",
    "Mlio.C94_second_violated",
    "Mlio.C94_balanced_partial",
    "Mlio.C94_threads_violated"
   ],
   "note": "False for the second client with default keys in a process: the chain of providers is a local variable that only the first call sets, so the second one goes through a null pointer (C94_second_violated); and for two threads that initialize the SDK at once (C94_threads_violated)."
  },
  {
   "property": "C95",
   "status": "partial",
   "theorems": [
    "Mlio.C95_records_partial",
    "Mlio.C95_reads_partial",
    "Mlio.C95_peek_violated",
    "Mlio.C95_memory_partial",
    "Mlio.C95_memory_reads",
    "Mlio.C95_store_violated",
    "Mlio.C95_mapped_violated"
   ],
   "note": "Proved for stores that are read in chunks: other records (C95_records_partial, where copies share) and later reads (C95_reads_partial). False for the record that was peeked (C95_peek_violated), for in-memory stores, whose contents are changed (C95_store_violated), and for mapped files, where the process gets a signal (C95_mapped_violated)."
  },
  {
   "property": "C96",
   "status": "partial",
   "theorems": [
    "Mlio.C96_program_partial",
    "Mlio.C96_for_partial",
    "Mlio.C96_contains",
    "Mlio.C96_temporary_violated",
    "Mlio.C96_none_violated",
    "Mlio.C96_null_violated"
   ],
   "note": "Proved for programs that pass no None and advance an iterator only while something refers to its example (C96_program_partial, C96_for_partial; C96_contains). False otherwise: `for f in reader.read_example()` reads freed memory (C96_temporary_violated); Example(None, ...) uses a null pointer (C96_none_violated); a None feature is accepted and then both contained and missing (C96_null_violated). pybind11 itself is modelled from its documentation."
  },
  {
   "property": "C97",
   "status": "partial",
   "theorems": [
    "Mlio.C97_program_partial",
    "Mlio.C97_index_violated",
    "Mlio.C97_example_violated",
    "Mlio.C97_reference_violated",
    "Mlio.C97_pop_violated",
    "Mlio.C97_alias_violated",
    "Mlio.C97_reader_violated"
   ],
   "note": "Proved for programs that only look (C97_program_partial). False for programs that use the methods of schema.attributes, which change the schema in place: positions of names are stale (C97_index_violated), examples are read out of range (C97_example_violated), attributes in variables dangle or change (C97_reference_violated, C97_alias_violated), and the reader of the schema fails (C97_reader_violated)."
  },
  {
   "property": "C98",
   "status": "partial",
   "theorems": [
    "Mlio.C98_allocate",
    "Mlio.C98_resize_partial",
    "Mlio.C98_grow_violated",
    "Mlio.C98_served_partial",
    "Mlio.C98_replaced_violated",
    "Mlio.C98_early_violated"
   ],
   "note": "Proved: C98_allocate; for resized blocks C98_resize_partial, except the resizing that takes the block beyond the threshold, after which it is still on the heap (C98_grow_violated); C98_served_partial for programs that begin with initialize(). initialize() replaces an allocator that was set before (C98_replaced_violated), and allocating before it uses a null pointer (C98_early_violated)."
  },
  {
   "property": "C99",
   "status": "partial",
   "theorems": [
    "Mlio.C99_hash",
    "Mlio.C99_sketch_partial",
    "Mlio.C99_set",
    "Mlio.C99_clz_violated"
   ],
   "note": "Proved: C99_hash (every text, address and variant: the published XXH32, no read outside); C99_sketch_partial and C99_set but for texts whose hash has only zeros after the bucket, in builds with __builtin_clz. Such texts are undefined behaviour there: the cell \"crqaa\" in any column (C99_clz_violated)."
  },
  {
   "property": "C100",
   "status": "partial",
   "theorems": [
    "Mlio.C100_records",
    "Mlio.C100_unique",
    "Mlio.C100_at_most",
    "Mlio.C100_logger_partial",
    "Mlio.C100_off_violated"
   ],
   "note": "Proved: C100_records and C100_unique for programs that leave the settings of \"mlio\" to set_log_level; C100_at_most for all programs; C100_logger_partial. After set_log_level(OFF) the logger is at NOTSET and enabled for all that the root logger is enabled for (C100_off_violated). Messages are texts here (C90 has those that are not), and warnings about rows depend on the level at construction (C90)."
  },
  {
   "property": "C101",
   "status": "partial",
   "theorems": [
    "Mlio.C101_result",
    "Mlio.C101_lock",
    "Mlio.C101_finite",
    "Mlio.C101_returns_partial",
    "Mlio.C101_hangs_violated",
    "Mlio.C101_releasing",
    "Mlio.C101_warning_hangs_violated",
    "Mlio.C101_python_store_hangs_violated"
   ],
   "note": "Proved: C101_result, C101_lock and C101_finite; C101_returns_partial if nothing in the background needs the interpreter lock. The binding does not give the lock away: for every dataset without errors in which the background thread needs it (a warning for the log handler, a data store written in Python) the call never returns (C101_hangs_violated, with two datasets). With a binding that gives it away it always would (C101_releasing)."
  },
  {
   "property": "C102",
   "status": "partial",
   "theorems": [
    "Mlio.C102_defined_partial",
    "Mlio.C102_repeat",
    "Mlio.C102_counts",
    "Mlio.C102_reals_partial",
    "Mlio.C102_median",
    "Mlio.C102_values",
    "Mlio.C102_utf8_violated",
    "Mlio.C102_decimals_violated"
   ],
   "note": "Proved: C102_counts, C102_values, C102_median and C102_repeat in full; C102_defined_partial: there is a dictionary exactly if the first cell and the captured values are UTF-8 (otherwise UnicodeDecodeError, C102_utf8_violated); C102_reals_partial: extremes and averages are right to the sixth decimal, but smaller numbers are shown as zero (C102_decimals_violated). Floating point numbers are rational ones."
  },
  {
   "property": "C103",
   "status": "partial",
   "theorems": [
    "Mlio.C103_records",
    "Mlio.C103_instances_partial",
    "Mlio.C103_calls_partial",
    "Mlio.C103_sampling_violated",
    "Mlio.C103_none_violated",
    "Mlio.C103_sampling_calls_violated",
    "Mlio.C103_csv_stores_partial",
    "Mlio.C103_csv_calls_partial",
    "Mlio.C103_csv_same",
    "Mlio.C103_csv_header_violated",
    "Mlio.C103_text_stores_partial",
    "Mlio.C103_text_calls_partial",
    "Mlio.C103_proto_stores_partial",
    "Mlio.C103_proto_calls_partial",
    "Mlio.C103_csv_partial",
    "Mlio.C103_csv_memory_partial",
    "Mlio.C103_lines_partial",
    "Mlio.C103_csv_violated",
    "Mlio.C103_two_marks_violated"
   ],
   "note": "Proved for record readers with the property (RecordIO over any bytes: C103_records; CSV rows and text lines without byte order marks in front of lines: C103_csv_partial, C103_csv_memory_partial, C103_lines_partial) and for text lines, RecordIO and CSV in data stores that may be in order, cut short, not well formed, damaged or impossible to open (C103_text_stores_partial, C103_text_calls_partial, C103_proto_stores_partial, C103_proto_calls_partial, C103_csv_stores_partial, and C103_csv_calls_partial if the first instances of the other epochs fail as well; C103_csv_same shows that opening the stores of an epoch one by one, and again after errors, makes no difference there), under all options but sampling and num_instances_to_read = 0, for which it is false: C103_sampling_violated, C103_sampling_calls_violated, C103_none_violated. It is false for CSV rows that start with a byte order mark: C103_csv_violated, C103_two_marks_violated; and for header rows that are not well formed: C103_csv_header_violated."
  },
  {
   "property": "C104",
   "status": "partial",
   "theorems": [
    "Mlio.C104_accepted",
    "Mlio.C104_refused_partial",
    "Mlio.C104_refused_iff",
    "Mlio.C104_works_partial",
    "Mlio.C104_ratio",
    "Mlio.C104_nan_violated",
    "Mlio.C104_nan_undefined_violated",
    "Mlio.C104_shard_violated"
   ],
   "note": "Every option that makes sense is accepted and works (C104_accepted, C104_works_partial without pad_warn, C104_ratio); what is refused exactly: C104_refused_iff. False for a NaN as sample ratio, which is accepted and makes the first read undefined (C104_nan_violated, C104_nan_undefined_violated), and for a shard index without shards, which is ignored (C104_shard_violated)."
  },
  {
   "property": "C105",
   "status": "partial",
   "theorems": [
    "Mlio.C105_recordio",
    "Mlio.C105_memory_partial",
    "Mlio.C105_memory_violated",
    "Mlio.C105_parquet_where",
    "Mlio.C105_recordio_where",
    "Mlio.C105_parquet_violated"
   ],
   "note": "Proved for RecordIO over all streams (C105_recordio) and in aligned memory (C105_memory_partial); C105_recordio_where and C105_parquet_where say which integers are read. False in memory that is not aligned (C105_memory_violated) and for every Parquet record (C105_parquet_violated)."
  },
  {
   "property": "C106",
   "status": "partial",
   "theorems": [
    "Mlio.C106_once",
    "Mlio.C106_kept",
    "Mlio.C106_gone",
    "Mlio.C106_deleted",
    "Mlio.C106_iff",
    "Mlio.C106_store_partial",
    "Mlio.C106_data_reader_partial",
    "Mlio.C106_iterate_violated",
    "Mlio.C106_violated"
   ],
   "note": "Given back once, not before the last object has gone and not later: proved for all programs (C106_once, C106_kept, C106_gone). With the lock: exactly when C106_iff says, in particular if the store is kept until the last call of a record reader (C106_store_partial) or only data readers are used (C106_data_reader_partial). False in general: reading a Parquet store to its end through a reader that is the last to refer to it (C106_iterate_violated)."
  },
  {
   "property": "C107",
   "status": "partial",
   "theorems": [
    "Mlio.C107_delivers",
    "Mlio.C107_end",
    "Mlio.C107_size",
    "Mlio.C107_read_fails_partial",
    "Mlio.C107_read_time",
    "Mlio.C107_open_time",
    "Mlio.C107_open_partial",
    "Mlio.C107_open_patient_partial",
    "Mlio.C107_open_signals_violated",
    "Mlio.C107_open_violated",
    "Mlio.C107_timedelta_partial",
    "Mlio.C107_timedelta_violated"
   ],
   "note": "Contents, end, size and time: proved for all histories (C107_delivers, C107_end, C107_size, C107_read_time, C107_open_time). Failures: proved if the number of the descriptor is below 1024 (C107_read_fails_partial, C107_open_partial); above, FD_SET writes outside of the set (C107_open_violated). Opening does not give up early (C107_open_patient_partial), except that signals cut the pauses short (C107_open_signals_violated). The time given in Python is cut to whole seconds (C107_timedelta_partial, C107_timedelta_violated)."
  },
  {
   "property": "C108",
   "status": "partial",
   "theorems": [
    "Mlio.C108_few_partial",
    "Mlio.C108_exact_partial",
    "Mlio.C108_few_le",
    "Mlio.C108_none",
    "Mlio.C108_defined_partial",
    "Mlio.C108_defined_builtin",
    "Mlio.C108_defined_violated",
    "Mlio.C108_monotone_partial",
    "Mlio.C108_monotone_violated"
   ],
   "note": "With real numbers in place of doubles. Few texts: C108_none, C108_few_partial, C108_exact_partial, C108_few_le (texts with hashes that have zeros only behind the bucket are excluded in builds with __builtin_clz, see C99_clz_violated). A number: for all columns in builds with __builtin_clz (C108_defined_builtin), otherwise if not too many hashes end in zeros (C108_defined_partial); false in general (C108_defined_violated). Growing: C108_monotone_partial; false where the formula changes (C108_monotone_violated). The expected error is a statement about random hashes and is not modelled. Order and repetitions: C99_set."
  },
  {
   "property": "C109",
   "status": "partial",
   "theorems": [
    "Mlio.C109_exact",
    "Mlio.C109_partial",
    "Mlio.C109_builtin",
    "Mlio.C109_violated",
    "Mlio.C109_read_back_violated"
   ],
   "note": "Exactly when it holds: C109_exact. For data stores of the library always (C109_builtin); for data stores written in Python if the program holds them, in a variable or a list, from when they are made until they are opened (C109_partial). False otherwise: C109_violated, C109_read_back_violated."
  },
  {
   "property": "C110",
   "status": "partial",
   "theorems": [
    "Mlio.C110_session",
    "Mlio.C110_for",
    "Mlio.C110_reset",
    "Mlio.C110_tf_exact",
    "Mlio.C110_tf_partial",
    "Mlio.C110_finished",
    "Mlio.C110_reader",
    "Mlio.C110_tf_violated"
   ],
   "note": "Loops, iterators and direct calls in full: C110_session (every call of every program), C110_for, C110_reset. Datasets: what an iteration sees exactly (C110_tf_exact, C110_finished), which is the whole dataset if the program resets the reader in front of each iteration (C110_tf_partial); otherwise the second iteration is empty, for every reader (C110_tf_violated). The reader of the model is what C89 proves of the real ones: C110_reader."
  },
  {
   "property": "C111",
   "status": "partial",
   "theorems": [
    "Mlio.C111_partial",
    "Mlio.C111_locked",
    "Mlio.C111_lock",
    "Mlio.C111_lock_violated",
    "Mlio.C111_exception_violated"
   ],
   "note": "C111_partial: every program that drops the last array over a Python buffer with the interpreter lock and no taken capsule while an exception is on its way behaves as specified, and memory is freed exactly when nothing refers to it. C111_lock: the first condition is exactly when the behaviour is defined. Both conditions are needed of the code: C111_lock_violated, C111_exception_violated."
  },
  {
   "property": "C112",
   "status": "partial",
   "theorems": [
    "Mlio.C112_fields",
    "Mlio.C112_roundtrip",
    "Mlio.C112_unknown",
    "Mlio.C112_last",
    "Mlio.C112_pieces",
    "Mlio.C112_inside",
    "Mlio.C112_parts",
    "Mlio.C112_size_violated",
    "Mlio.C112_dataset_partial"
   ],
   "note": "Proved for all instances below 2 GiB; C112_size_violated shows what happens beyond. The parser is generated by the protobuf library: the model is the published wire format, as the library reads it, for the fields that the .proto file declares. C112_dataset_partial composes it with C68."
  },
  {
   "property": "C113",
   "status": "proved",
   "theorems": [
    "Mlio.C113_table",
    "Mlio.C113_nearest",
    "Mlio.C113_overflow",
    "Mlio.C113_nan",
    "Mlio.C113_refused",
    "Mlio.C113_representable",
    "Mlio.C113_order",
    "Mlio.C113_inferred"
   ],
   "note": "Rests on an unchecked assumption: the parser of numbers belongs to Abseil, whose sources and documentation are not in the sandbox. Its syntax and its rounding to the nearest value are modelled from general knowledge of release 20210324, so the theorems are about the code of ml-io around it together with that description. What the code adds (infinities are refused, NaN texts of the user, inference) is modelled as it is. C113_table composes it with the decoding of CSV batches (C31). Hexadecimal numbers are accepted here, but not in columns of integers (C38)."
  },
  {
   "property": "C114",
   "status": "partial",
   "theorems": [
    "Mlio.C114_paths_partial",
    "Mlio.C114_names_partial",
    "Mlio.C114_bracket_partial",
    "Mlio.C114_backslash_partial",
    "Mlio.C114_all_partial",
    "Mlio.C114_objects",
    "Mlio.C114_name_violated",
    "Mlio.C114_directory_violated"
   ],
   "note": "Rests on a description of fnmatch, which belongs to the C library and is not in the repository; it was written from general knowledge and compared with the C library of the sandbox on 117778 random cases (one known difference: patterns that end in an unclosed bracket and a minus sign). Proved for whole paths, if at least one path is given (C114_paths_partial, C114_all_partial; for none see C82_empty_violated), and for whole URIs (C114_objects). For names it holds only for patterns of a star and single characters other than the slash (C114_names_partial): the code compares the pattern with the path, so that a.csv selects nothing below a directory (C114_name_violated) and *a*b selects a file because of its directory (C114_directory_violated). Patterns that are not well formed: an opening bracket without a closing one stands for itself (C114_bracket_partial), and a pattern that ends in a backslash matches nothing (C114_backslash_partial). Character classes such as [[:digit:]] are left out."
  },
  {
   "property": "C115",
   "status": "partial",
   "theorems": [
    "Mlio.C115_same_partial",
    "Mlio.C115_hash",
    "Mlio.C115_foreign_violated",
    "Mlio.C115_side_violated",
    "Mlio.C115_in_violated",
    "Mlio.C115_in_partial"
   ],
   "note": "Holds for objects of the same class (C115_same_partial, C115_hash, C115_in_partial). Fails for objects of different classes: every comparison with None, a number or an object of another class raises TypeError (C115_foreign_violated), and so membership in a list depends on its order (C115_in_violated). An object that answers itself is compared only if it stands on the left (C115_side_violated). Rests on how pybind11 calls a method without py::is_operator, which is from general knowledge and unchecked, and on how Python compares, which was tried with Python 3.11 and a class that raises in the same way. Data stores written in Python are left out (C83)."
  },
  {
   "property": "C116",
   "status": "partial",
   "theorems": [
    "Mlio.C116_appended",
    "Mlio.C116_mapped_partial",
    "Mlio.C116_still_partial",
    "Mlio.C116_cut",
    "Mlio.C116_cut_violated",
    "Mlio.C116_cut_both_violated",
    "Mlio.C116_special_violated",
    "Mlio.C116_load_partial",
    "Mlio.C116_load_mapped_partial",
    "Mlio.C116_load_special_violated",
    "Mlio.C116_load_cut_partial",
    "Mlio.C116_load_violated"
   ],
   "note": "Holds for files that are not mapped into memory (C116_appended, C116_cut, C116_still_partial) and for mapped files of known size that do not lose bytes (C116_mapped_partial, C116_still_partial). Fails for mapped files, the default: after a cut the reads return zeros or the program ends with SIGBUS (C116_cut_violated, C116_cut_both_violated), and files whose size the system gives as 0 are read as empty (C116_special_violated). Files that are loaded whole (images): C116_load_mapped_partial for mapped files of known size, C116_load_partial and C116_load_cut_partial for streams over files of known size that are not empty when opened; otherwise loading does not end, also of files that hold something (C116_load_violated), and a mapped file of size 0 loads as nothing (C116_load_special_violated). Zeros, SIGBUS and the size 0 of files in /proc were tried on Linux with a small C program; that block devices have size 0, too, is general knowledge. Files that are overwritten in place, errors of the system and compression are left out."
  },
  {
   "property": "C117",
   "status": "partial",
   "theorems": [
    "Mlio.C117_recordio",
    "Mlio.C117_parquet",
    "Mlio.C117_text_partial",
    "Mlio.C117_returns_partial",
    "Mlio.C117_huge_violated",
    "Mlio.C117_size_partial",
    "Mlio.C117_memory",
    "Mlio.C117_memory_size_violated"
   ],
   "note": "The records are proved to be those of the contents (C117_recordio, C117_parquet, C117_memory; C117_text_partial, without the texts whose lines depend on chunks, see C05). The calls return for sizes up to 2^63 (C117_returns_partial); for greater ones they never do (C117_huge_violated). The size that is reported is right for streams read in chunks (C117_size_partial) and zero for contents in memory (C117_memory_size_violated). Memory for chunks of the announced size is assumed to be there."
  },
  {
   "property": "C118",
   "status": "partial",
   "theorems": [
    "Mlio.C118_integers",
    "Mlio.C118_floats",
    "Mlio.C118_strings",
    "Mlio.C118_half_violated"
   ],
   "note": "Proved for the integer types and size (C118_integers), float32 and float64 (C118_floats, resting on the assumption about Abseil of C113) and string (C118_strings). False for float16: its parser refuses every text, so that every row of a table with such a column is bad (C118_half_violated). That the text can be a field follows from quoting (C08)."
  }
 ]
}