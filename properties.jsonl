{"id": "C01", "title": "RecordIO framing round-trip", "statement": "If a file is a sequence of RecordIO frames (magic, kind and payload length packed in one word, payload, zero to three padding bytes), the RecordIO record reader returns exactly those records, in order, with the same kinds and the same payload bytes, and then reports end of data.", "quantifier": "every finite sequence of records, every kind 0..7, every payload shorter than 2^29 bytes, every padding byte value", "why_tests_cant": "payload contents and lengths are unbounded, and alignment and header packing interact with every length residue", "anchors": ["src/mlio/record_readers/recordio_record_reader.cc:decode_record", "src/mlio/record_readers/detail/recordio_header.cc:decode_recordio_header", "src/mlio/record_readers/detail/util.h:align"]}
{"id": "C02", "title": "RecordIO decoding of arbitrary bytes is in bounds and never silently wrong", "statement": "For any byte string, decoding one RecordIO record either returns a record whose payload and remainder are exactly sub-ranges of the input, or asks for more data, or raises a corrupt-record error; a record is returned only when the input starts with a valid header and contains the whole frame, and truncated or mis-tagged input at end of stream is always an error.", "quantifier": "every byte string and both end-of-stream situations", "why_tests_cant": "adversarial file contents cannot be enumerated", "anchors": ["src/mlio/record_readers/recordio_record_reader.cc:decode_record", "src/mlio/record_readers/detail/recordio_header.cc:decode_recordio_header", "include/mlio/memory/memory_slice.h:subslice"]}
{"id": "C03", "title": "RecordIO reading does not depend on chunking or short reads", "statement": "The sequence of records (or errors) read from a RecordIO stream is the same for every initial chunk size and for every way the underlying stream splits its data over read calls, and equals decoding the whole file at once.", "quantifier": "every stream contents, every positive initial chunk size, every schedule of short reads, every number of read calls", "why_tests_cant": "the number of chunk sizes and read splits is unbounded; a boundary bug shows only when a frame straddles a particular chunk edge", "anchors": ["src/mlio/record_readers/stream_record_reader.cc:read_record_core", "src/mlio/record_readers/detail/default_chunk_reader.cc:read_chunk", "src/mlio/record_readers/recordio_record_reader.cc:decode_record"]}
{"id": "C04", "title": "Split records are reassembled exactly", "statement": "A record split in a begin part, any number of middle parts and an end part is delivered as one instance whose bytes are the concatenation of the parts, complete records are delivered unchanged, the order is kept, and any other arrangement of parts is reported as a corrupt record, after which the reader keeps failing.", "quantifier": "every sequence of record parts over every number of data stores", "why_tests_cant": "arrangements of parts and stores are unbounded", "anchors": ["src/mlio/instance_readers/core_instance_reader.cc:read_record_payload", "src/mlio/instance_readers/core_instance_reader.cc:read_split_record_payload"]}
{"id": "C05", "title": "Text lines do not depend on chunking or short reads", "statement": "The sequence of lines read from a text stream is the same for every chunk size and every schedule of short reads as when the whole text is available at once.", "quantifier": "every text, every chunk size, every schedule of short reads", "why_tests_cant": "a line terminator can straddle any chunk edge", "anchors": ["src/mlio/record_readers/detail/text_line.cc:read_line", "src/mlio/record_readers/text_record_reader.cc:decode_record", "src/mlio/record_readers/stream_record_reader.cc:read_record_core"]}
{"id": "C06", "title": "Text is split in lines exactly at LF, CRLF and CR", "statement": "Reading a text yields exactly the maximal runs of bytes between line terminators (LF, CR, or CRLF counted once); every byte that is not part of a terminator appears in exactly one line, in order, and reading never touches memory outside the buffer.", "quantifier": "every byte string", "why_tests_cant": "inputs are unbounded; memory safety must hold for each of them", "anchors": ["src/mlio/record_readers/detail/text_line.cc:read_line", "src/mlio/record_readers/text_line_record_reader.cc:decode_text_record"]}
{"id": "C07", "title": "CSV rows with quoted newlines do not depend on chunking or short reads", "statement": "With allow_quoted_new_lines, the sequence of CSV rows (or errors) is the same for every chunk size and schedule of short reads as when the whole text is available at once.", "quantifier": "every text, delimiter, quote and comment character, blank-line setting, chunk size and schedule of short reads", "why_tests_cant": "quotes, carriage returns and newlines can straddle any chunk edge in any parser state", "anchors": ["src/mlio/record_readers/csv_record_reader.cc:read_line", "src/mlio/record_readers/csv_record_reader.cc:decode_text_record", "src/mlio/record_readers/stream_record_reader.cc:read_record_core"]}
{"id": "C08", "title": "CSV field tokenization inverts CSV quoting", "statement": "Tokenizing a row written by the usual CSV rule (fields joined by the delimiter, each either written plainly when it contains no special character or quoted with inner quotes doubled) returns exactly the original fields and then end of row.", "quantifier": "every non-empty list of fields with arbitrary bytes, every choice of which fields are quoted, every delimiter different from the quote", "why_tests_cant": "field contents and counts are unbounded", "anchors": ["src/mlio/csv_record_tokenizer.cc:next"]}
{"id": "C09", "title": "CSV file round-trip", "statement": "Writing any table as CSV with quoting and reading it with the CSV record reader (quoted newlines allowed) and the tokenizer gives back the same rows and fields, including fields with embedded delimiters, quotes and line breaks.", "quantifier": "every table with arbitrary byte fields, every row terminator choice", "why_tests_cant": "contents are unbounded and the record splitter and the tokenizer must agree on every one of them", "anchors": ["src/mlio/record_readers/csv_record_reader.cc:read_line", "src/mlio/csv_record_tokenizer.cc:next"]}
{"id": "C10", "title": "Row splitting and field tokenization agree", "statement": "Every row produced with allow_quoted_new_lines tokenizes completely: the tokenizer never reports an unterminated quoted field for it.", "quantifier": "every text, delimiter and quote character", "why_tests_cant": "two independently written state machines must agree on every input", "anchors": ["src/mlio/record_readers/csv_record_reader.cc:read_line", "src/mlio/csv_record_tokenizer.cc:next"]}
{"id": "C11", "title": "max_line_length accepts exactly the lines that fit", "statement": "A line is rejected as too large if and only if its content is longer than max_line_length, whatever its terminator.", "quantifier": "every line, every limit, every terminator, quoted newlines allowed or not", "why_tests_cant": "the boundary must be right for every limit", "anchors": ["src/mlio/record_readers/csv_record_reader.cc:check_line_length", "src/mlio/record_readers/detail/text_line.cc:read_line"]}
{"id": "C12", "title": "max_field_length keeps exactly the allowed prefix", "statement": "With max_field_length = n, each field value is the first n characters of the value it has without the limit, the truncation flag is set exactly when the value is longer than n, and the field boundaries do not change.", "quantifier": "every row, every limit", "why_tests_cant": "rows and limits are unbounded", "anchors": ["src/mlio/csv_record_tokenizer.cc:push_char", "src/mlio/csv_record_tokenizer.cc:next"]}
{"id": "C13", "title": "Comment and blank lines are skipped and nothing else", "statement": "Without quoted newlines, the CSV rows are exactly the text lines that do not start with the comment character and, if skip_blank_lines is set, are not empty; in the same order with the same contents.", "quantifier": "every text, comment character and setting", "why_tests_cant": "inputs are unbounded", "anchors": ["src/mlio/record_readers/csv_record_reader.cc:decode_text_record", "src/mlio/record_readers/csv_record_reader.cc:is_comment_line"]}
{"id": "C14", "title": "The UTF-8 byte order mark is removed at the start of the stream only", "statement": "A byte order mark at the very start of a text stream is not part of the first line; the same bytes anywhere else are data and are preserved.", "quantifier": "every text", "why_tests_cant": "inputs are unbounded", "anchors": ["src/mlio/record_readers/text_record_reader.cc:skip_utf8_bom", "src/mlio/record_readers/text_record_reader.cc:decode_record"]}
{"id": "C15", "title": "Parquet container detection is in bounds and incremental", "statement": "For any byte string the Parquet record reader reads only inside the input, returns only sub-ranges that start and end with the magic number and carry a plausible footer, raises an error for input that cannot be Parquet, and gives the same result for every chunking.", "quantifier": "every byte string, chunk size and schedule of short reads", "why_tests_cant": "adversarial inputs and boundaries cannot be enumerated", "anchors": ["src/mlio/record_readers/parquet_record_reader.cc:decode_record", "src/mlio/record_readers/parquet_record_reader.cc:is_footer"]}
{"id": "C16", "title": "peek does not consume", "statement": "For record readers, instance readers and data readers, any number of peeks between reads leaves the sequence of items returned by reads unchanged, and a peek returns what the next read returns.", "quantifier": "every interleaving of peeks, reads and resets", "why_tests_cant": "interleavings are unbounded", "anchors": ["src/mlio/record_readers/record_reader_base.cc", "src/mlio/instance_readers/instance_reader_base.cc", "src/mlio/data_reader_base.cc"]}
{"id": "C17", "title": "num_instances_to_skip and num_instances_to_read select a contiguous range", "statement": "The instances read are exactly the dataset without its first num_instances_to_skip instances, cut to the first num_instances_to_read, and the end of data is reported after that for ever.", "quantifier": "every dataset, skip and read count", "why_tests_cant": "sizes are unbounded", "anchors": ["src/mlio/instance_readers/ranged_instance_reader.cc"]}
{"id": "C18", "title": "Shards partition the dataset", "statement": "Shard i of n reads exactly the instances whose position is congruent to i modulo n, in order; so the shards are disjoint, together contain every instance once, and their sizes differ by at most one.", "quantifier": "every dataset, number of shards and shard index", "why_tests_cant": "sizes are unbounded", "anchors": ["src/mlio/instance_readers/sharded_instance_reader.cc"]}
{"id": "C19", "title": "sample_ratio reads that fraction of every block and reaches the end of the dataset", "statement": "With sample_ratio r the instances read are, for each consecutive block of 100 instances (the last block may be shorter), the first floor(r * block size) instances of that block, where the product is that of single precision arithmetic (so the number is between the floor and the ceiling of the exact product), for all blocks up to the end of the dataset.", "quantifier": "every dataset and every ratio strictly between 0 and 1 that a float can hold", "why_tests_cant": "dataset sizes and ratios are unbounded", "anchors": ["src/mlio/instance_readers/sampled_instance_reader.cc"]}
{"id": "C20", "title": "Shuffling is a permutation limited by the window", "statement": "With shuffle_instances every instance is returned exactly once per epoch; with window w no instance is returned before all but w-1 of its predecessors have been read in, i.e. the k-th returned instance is among the first k + w - 1 of the dataset; window 1 keeps the order.", "quantifier": "every dataset, window and sequence of random choices", "why_tests_cant": "random choices and sizes are unbounded", "anchors": ["src/mlio/instance_readers/shuffled_instance_reader.cc"]}
{"id": "C21", "title": "Shuffling is reproducible", "statement": "With a fixed seed and reshuffle_each_epoch = false, every epoch, however the previous one was interrupted, returns the instances in the same order.", "quantifier": "every dataset, seed, window and point of interruption", "why_tests_cant": "interruption points and histories are unbounded", "anchors": ["src/mlio/instance_readers/shuffled_instance_reader.cc:reset_core"]}
{"id": "C22", "title": "reset starts a fresh epoch", "statement": "After reset, at any point, reading returns the same instances and batches as a newly created reader (apart from reshuffling), with the same indices.", "quantifier": "every history of reads, peeks and resets, every combination of range, shard and sample options", "why_tests_cant": "histories are unbounded", "anchors": ["src/mlio/instance_readers/instance_reader_base.cc:reset", "src/mlio/instance_readers/core_instance_reader.cc:reset_core", "src/mlio/instance_readers/ranged_instance_reader.cc:reset_core", "src/mlio/instance_readers/sharded_instance_reader.cc:reset_core", "src/mlio/instance_batch_reader.cc:reset"]}
{"id": "C23", "title": "Reader options compose in a fixed order", "statement": "Range, sharding, sampling and shuffling used together select: range first, then shard, then sample, then shuffle.", "quantifier": "every dataset and option combination", "why_tests_cant": "combinations and sizes are unbounded", "anchors": ["src/mlio/instance_readers/instance_reader.cc:make_instance_reader"]}
{"id": "C24", "title": "Batching keeps every instance once, in order, with the documented last batch", "statement": "Concatenating the batches gives the instances in order; every batch but the last has batch_size instances; batch indices count from zero; the short last batch is returned short (none), dropped (drop) or declared with the full batch size (pad), and the *_warn variants behave like the plain ones.", "quantifier": "every dataset, batch size and last_example_handling", "why_tests_cant": "sizes are unbounded", "anchors": ["src/mlio/instance_batch_reader.cc:read_instance_batch"]}
{"id": "C25", "title": "Parallel reading preserves order under every schedule", "statement": "Whatever the interleaving of the background tasks, the examples returned are the decoded batches in dataset order, each exactly once, with batches decoded to nothing left out.", "quantifier": "every interleaving of reading, decoding, queueing and consuming, every decode latency", "why_tests_cant": "schedules are unbounded and timing dependent", "anchors": ["src/mlio/parallel_data_reader.cc:init_graph", "src/mlio/parallel_data_reader.cc:read_example_core"]}
{"id": "C26", "title": "Prefetching is bounded", "statement": "At every moment at most num_prefetched_examples examples wait in each of the two hand-over queues and at most num_parallel_reads batches are between being handed to decoding and being queued (one further batch may have been read and wait to be handed on).", "quantifier": "every schedule and every state", "why_tests_cant": "schedules are unbounded", "anchors": ["src/mlio/parallel_data_reader.cc:init_graph"]}
{"id": "C27", "title": "Parallel reading does not get stuck", "statement": "In every reachable state with a waiting consumer, some task can move, and after finitely many moves the consumer gets an example, the end of data, or the error.", "quantifier": "every reachable state of every schedule", "why_tests_cant": "deadlocks show only in rare interleavings", "anchors": ["src/mlio/parallel_data_reader.cc:run_pipeline", "src/mlio/parallel_data_reader.cc:read_example_core"]}
{"id": "C28", "title": "A failing batch loses no earlier example", "statement": "If reading or decoding some batch fails, the consumer first receives every example before it and then the error.", "quantifier": "every position of the failure and every schedule", "why_tests_cant": "outcome depends on timing", "anchors": ["src/mlio/parallel_data_reader.cc:run_pipeline", "src/mlio/parallel_data_reader.cc:read_example_core"]}
{"id": "C29", "title": "reset and stop cut off the old epoch", "statement": "After reset at any moment no example of the interrupted epoch is returned, and the new epoch is complete.", "quantifier": "every schedule and every moment of reset", "why_tests_cant": "timing dependent", "anchors": ["src/mlio/parallel_data_reader.cc:stop", "src/mlio/parallel_data_reader.cc:reset"]}
{"id": "C30", "title": "CSV row decoding accepts exactly well-formed rows", "statement": "A CSV row is accepted if and only if it has exactly as many fields as the schema has columns, each used field parses as its column type and no used field is over the length limit in treat-as-bad mode; an accepted row stores each used field in its column at the row's position and nothing else; the reported number of columns of a bad row is its true number of fields.", "quantifier": "every row, column selection, parser and limit", "why_tests_cant": "rows are unbounded", "anchors": ["src/mlio/csv_reader.cc:Decoder::decode"]}
{"id": "C31", "title": "CSV batch decoding: order, padding, serial and parallel agree", "statement": "The good rows of a batch appear in order at positions 0,1,...; padding = batch size minus good rows; positions in the padding hold zero values; parallel decoding of a batch without bad rows gives the same tensors as serial decoding.", "quantifier": "every batch, split of work, and bad-row pattern", "why_tests_cant": "batches and work splits are unbounded", "anchors": ["src/mlio/csv_reader.cc:decode", "src/mlio/csv_reader.cc:decode_ser", "src/mlio/csv_reader.cc:decode_prl"]}
{"id": "C32", "title": "bad_example_handling is obeyed for every kind of bad row", "statement": "A row that cannot be decoded raises an error (error), drops its whole example (skip) or only itself (pad), whatever makes it bad.", "quantifier": "every batch and every kind of malformed row", "why_tests_cant": "kinds and positions of malformed rows are unbounded", "anchors": ["src/mlio/csv_reader.cc:decode", "src/mlio/csv_reader.cc:Decoder::decode"]}
{"id": "C33", "title": "Deduplicated column names are unique", "statement": "With dedupe_column_names every column gets a name, the first occurrence keeps its own name, all resulting names are different, and the procedure terminates, even if generated names clash with given ones.", "quantifier": "every list of column names", "why_tests_cant": "clash patterns are unbounded", "anchors": ["src/mlio/csv_reader.cc:init_parsers_and_make_schema"]}
{"id": "C34", "title": "Column type overrides are applied as specified", "statement": "Explicit column types, by index and by name, replace the inferred ones for exactly the named columns, all other columns keep theirs, and an override that names no column is an error.", "quantifier": "every column list and every override map", "why_tests_cant": "maps and lists are unbounded", "anchors": ["src/mlio/csv_reader.cc:apply_column_type_overrides"]}
{"id": "C35", "title": "Header rows never appear as data, in any epoch", "statement": "With header_row_index set, in every epoch each data store contributes exactly the rows after its header (or, with has_single_header, the first store loses its header and the others lose nothing).", "quantifier": "every dataset, header index and number of resets", "why_tests_cant": "epoch histories and datasets are unbounded", "anchors": ["src/mlio/csv_reader.cc:make_record_reader", "src/mlio/csv_reader.cc:reset"]}
{"id": "C36", "title": "Schema inference can be retried safely", "statement": "If schema inference fails, a later attempt on the same reader gives the same outcome as a fresh reader.", "quantifier": "every dataset and number of attempts", "why_tests_cant": "histories are unbounded", "anchors": ["src/mlio/csv_reader.cc:infer_schema", "src/mlio/csv_reader.cc:infer_column_types"]}
{"id": "C37", "title": "Inferred column types can hold the value they were inferred from", "statement": "The data type inferred from a field is one whose parser accepts that field.", "quantifier": "every field text", "why_tests_cant": "texts are unbounded", "anchors": ["src/mlio/data_type.cc:infer_data_type", "src/mlio/parser.cc:make_parser"]}
{"id": "C38", "title": "Integer parsing is exact", "statement": "Parsing a decimal integer of a given width succeeds if and only if the text is an integer (digits with an optional sign, no minus for unsigned types, surrounding white space allowed) in the range of that width, and then yields that integer; out-of-range text is reported as overflow.", "quantifier": "every text and every integer width and signedness", "why_tests_cant": "texts are unbounded and boundaries differ for each width", "anchors": ["src/mlio/util/number.cc:try_parse_int", "src/mlio/parser.cc"]}
{"id": "C39", "title": "Sparse keys and coordinates correspond one to one", "statement": "For a sparse tensor of a given shape every key below the number of elements of a row is accepted and decomposed in coordinates that lie inside the shape and from which the key can be recovered; any other key is rejected.", "quantifier": "every shape and every key", "why_tests_cant": "shapes and keys are unbounded", "anchors": ["src/mlio/coo_tensor_builder.cc:append_indices"]}
{"id": "C40", "title": "Sparse batches stay aligned and consistent", "statement": "After any sequence of good and bad instances the built COO tensor has coordinate vectors as long as its data, and each value carries the row number of the instance it came from.", "quantifier": "every sequence of good and bad instances", "why_tests_cant": "histories are unbounded", "anchors": ["src/mlio/coo_tensor_builder.cc", "src/mlio/recordio_protobuf_reader.cc:Decoder::decode"]}
{"id": "C41", "title": "A RecordIO-protobuf instance is accepted only if it carries every attribute exactly once", "statement": "An accepted instance provides a value for each attribute of the schema, each exactly once, with the shape, data type and sparseness of the schema.", "quantifier": "every instance and schema", "why_tests_cant": "instances are unbounded", "anchors": ["src/mlio/recordio_protobuf_reader.cc:Decoder::decode", "src/mlio/recordio_protobuf_reader.cc:decode_feature"]}
{"id": "C42", "title": "Dense tensors are in bounds", "statement": "A dense tensor that can be constructed has, for every multi-index inside its shape, an element offset inside its data; with default strides construction succeeds exactly when the data holds the product of the dimensions, and different multi-indices have different offsets; with given strides construction succeeds exactly when the data reaches the last element they span.", "quantifier": "every shape, stride vector and data size", "why_tests_cant": "shapes are unbounded, arithmetic is modular", "anchors": ["src/mlio/tensor.cc:validate_data_size", "src/mlio/tensor.cc:default_strides"]}
{"id": "C43", "title": "Schema lookup is exact", "statement": "A schema is accepted exactly if its attribute names are distinct; then looking up a name gives the index of the attribute with that name, or nothing, and equal schemas have equal hashes.", "quantifier": "every attribute list and name", "why_tests_cant": "lists are unbounded", "anchors": ["src/mlio/schema.cc:Schema", "src/mlio/schema.cc:get_index"]}
{"id": "C44", "title": "Memory slices are always inside their block", "statement": "Taking a sub-range of a memory slice either throws or yields exactly the requested bytes, inside the slice, for all 64-bit offsets and counts.", "quantifier": "every slice and all 64-bit arguments", "why_tests_cant": "the argument space includes wrap-around values", "anchors": ["include/mlio/memory/memory_slice.h:subslice", "src/mlio/memory/memory_slice.cc:validate_range"]}
{"id": "C45", "title": "Memory streams behave like a byte cursor", "statement": "Any sequence of reads and seeks on a memory stream behaves like a cursor over the bytes: reads return the next bytes, short only at the end, zero only at the end; seek beyond the end goes to the end.", "quantifier": "every contents and every sequence of operations with 64-bit arguments", "why_tests_cant": "operation sequences are unbounded", "anchors": ["src/mlio/streams/memory_input_stream.cc"]}
{"id": "C46", "title": "UTF-8 wrapping preserves the bytes of the stream", "statement": "Wrapping a stream whose text is UTF-8 (detected or declared) returns the same bytes for every pattern of read sizes, including the bytes consumed to detect the encoding, whether or not the stream is seekable; other encodings are detected exactly by their byte order marks, and valid text is never rejected.", "quantifier": "every stream contents, every read-size pattern", "why_tests_cant": "read patterns and contents are unbounded", "anchors": ["src/mlio/streams/utf8_input_stream.cc:make_utf8_stream", "src/mlio/streams/utf8_input_stream.cc:read", "src/mlio/streams/utf8_input_stream.cc:convert", "src/mlio/streams/utf8_input_stream.cc:infer_bom_encoding"]}
{"id": "C47", "title": "Gzip streams deliver the whole content", "statement": "Reading a gzip stream until it returns zero bytes gives the decompressed contents of all members, for every pattern of read sizes and of short reads of the compressed stream.", "quantifier": "every contents and read pattern", "why_tests_cant": "read patterns are unbounded", "anchors": ["src/mlio/streams/gzip_inflate_stream.cc:read", "src/mlio/streams/detail/zlib.cc:inflate"]}
{"id": "C48", "title": "A SageMaker pipe channel is open at most once and its FIFOs are used once each", "statement": "At any time at most one open stream exists per channel, and successive streams of a channel use strictly increasing FIFO numbers.", "quantifier": "every history of opening, closing and destroying streams", "why_tests_cant": "histories are unbounded", "anchors": ["src/mlio/streams/sagemaker_pipe_input_stream.cc"]}
{"id": "C49", "title": "Loading an instance returns the whole data store", "statement": "The bits of an instance backed by a data store are all the bytes of the store, for every stream kind, size and pattern of short reads, and loading terminates.", "quantifier": "every contents and read pattern", "why_tests_cant": "sizes and patterns are unbounded", "anchors": ["src/mlio/instance.cc:read_stream", "src/mlio/instance.cc:load_bits_from_store"]}
{"id": "C50", "title": "Records stay valid while they are held", "statement": "The payload of a record does not change while the record is held, whatever is read afterwards.", "quantifier": "every history of reads and of releasing records", "why_tests_cant": "histories are unbounded", "anchors": ["src/mlio/record_readers/detail/default_chunk_reader.cc:read_chunk", "include/mlio/intrusive_ref_counter.h"]}
{"id": "C51", "title": "Natural ordering is a total preorder and listings are sorted and complete", "statement": "The comparison used for sorting data stores is a strict weak ordering, orders equal-prefix names by their embedded numbers, and a listing over any number of pages contains every matching object once per URI, in that order.", "quantifier": "all strings, all paginations", "why_tests_cant": "std::sort needs the ordering laws on all triples of strings", "anchors": ["third-party/natsort/strnatcmp.c:strnatcmp0", "src/mlio/data_stores/s3_object.cc:list_s3_objects", "src/mlio/s3_client.cc:list_objects"]}
{"id": "C52", "title": "Compression inference and S3 URI parsing are exact", "statement": "Compression is inferred exactly from the suffixes .gz, .bz2 and .zip after a non-empty stem; an S3 URI is accepted exactly if it is s3://bucket/key with non-empty bucket and key, and splitting and joining it gives back the URI.", "quantifier": "all strings", "why_tests_cant": "strings are unbounded", "anchors": ["src/mlio/data_stores/detail/util.cc:infer_compression", "src/mlio/detail/s3_utils.cc"]}
{"id": "C53", "title": "Cardinality sketches are order independent and mergeable", "statement": "The cardinality estimator state depends only on the set of added values; registers stay in range; merging two estimators gives the estimator of the union.", "quantifier": "every sequence of values and every hash function", "why_tests_cant": "sequences are unbounded", "anchors": ["src/mlio-py/mlio/contrib/insights/hll/hyperloglog.cc"]}
{"id": "C54", "title": "Column statistics do not depend on batching", "statement": "Counts, extremes, mean and captured value counts of a column are those of the whole column, however the rows are split in examples.", "quantifier": "every column and every split in batches", "why_tests_cant": "splits are unbounded", "anchors": ["src/mlio-py/mlio/contrib/insights/column_analyzer.cc:analyze"]}
{"id": "C55", "title": "Growing and shrinking a memory block keeps its contents", "statement": "Resizing a memory block keeps the common prefix of its contents, for every sequence of sizes around the file-backing threshold, without touching memory outside the block.", "quantifier": "every threshold and sequence of sizes", "why_tests_cant": "sequences are unbounded", "anchors": ["src/mlio/memory/file_backed_memory_allocator.cc:Hybrid_memory_block::resize", "src/mlio/memory/util.cc:resize_memory_block"]}
{"id": "C56", "title": "Image resizing and cropping geometry", "statement": "The resized image has its shorter edge equal to the requested size and keeps the aspect ratio up to rounding; the crop rectangle lies inside the image, has the output size and is centred up to one pixel; too small images are bad instances.", "quantifier": "all image and output sizes", "why_tests_cant": "sizes are unbounded, arithmetic is 32 bit", "anchors": ["src/mlio/image_reader.cc:resize", "src/mlio/image_reader.cc:crop"]}
{"id": "C57", "title": "Reference counting keeps objects alive exactly while referenced", "statement": "An object is destroyed exactly when its last handle goes away, for every interleaving of copying, moving, assigning and dropping handles.", "quantifier": "every history of handle operations", "why_tests_cant": "histories are unbounded", "anchors": ["include/mlio/intrusive_ptr.h", "include/mlio/intrusive_ref_counter.h"]}
{"id": "C58", "title": "Exchanged arrays keep their element type and size", "statement": "Wrapping a Python buffer picks a data type whose element size equals the buffer's item size, and exporting a tensor to DLPack describes the same element type and size; unsupported types are rejected.", "quantifier": "every format string and item size, every data type", "why_tests_cant": "all format/size combinations must agree", "anchors": ["src/mlio-py/mlio/core/py_buffer.cc:get_data_type", "src/mlio/integ/dlpack.cc:as_dl_data_type"]}
{"id": "C59", "title": "CSR tensors can be constructed from consistent arrays", "statement": "Constructing a CSR tensor from arrays of consistent sizes succeeds and from inconsistent ones throws.", "quantifier": "every shape and array sizes", "why_tests_cant": "argument validation must be right for every combination", "anchors": ["src/mlio/tensor.cc:Csr_tensor"]}
{"id": "C60", "title": "Reading S3 objects returns the requested bytes", "statement": "Sequential reads and seeks on an S3 stream return the bytes of the object at the current position, short only at its end, and listing follows every continuation token.", "quantifier": "every object, every sequence of reads and seeks", "why_tests_cant": "sequences are unbounded", "anchors": ["src/mlio/streams/s3_input_stream.cc", "src/mlio/s3_client.cc:read_object"]}
{"id": "C61", "title": "Reading again after a stream error is safe", "statement": "When the underlying stream fails during a read, the error is raised, and reading again continues with the bytes not decoded yet or fails; it never accesses released memory and never returns a record that is not in the stream.", "quantifier": "every stream failure point, every chunk size and history", "why_tests_cant": "failure points and histories are unbounded", "anchors": ["src/mlio/record_readers/detail/default_chunk_reader.cc:read_chunk", "src/mlio/record_readers/stream_record_reader.cc:read_record_core"]}
{"id": "C62", "title": "COO tensors accept exactly consistent arrays", "statement": "Constructing a coordinate list tensor succeeds exactly when there is one coordinate array per dimension and each has as many elements as the data array; otherwise it throws.", "quantifier": "every shape and all array sizes", "why_tests_cant": "argument validation must be right for every combination", "anchors": ["src/mlio/tensor.cc:Coo_tensor"]}
{"id": "C63", "title": "The schema inferred from a RecordIO-protobuf instance fits it", "statement": "The schema inferred from a well-formed instance has an attribute for each label and feature of it, and the instance is accepted when it is decoded with that schema.", "quantifier": "every well-formed instance and batch size", "why_tests_cant": "instances are unbounded", "anchors": ["src/mlio/recordio_protobuf_reader.cc:infer_schema", "src/mlio/recordio_protobuf_reader.cc:make_attribute"]}
{"id": "C64", "title": "Arrays exchanged with NumPy and DLPack keep their shape and elements", "statement": "Wrapping or copying a NumPy array gives a tensor with the same shape that has at every multi-index the element of the array, and exporting a dense tensor to NumPy or DLPack gives an array with the same shape and elements; anything that cannot be exchanged is rejected, and no memory outside the array is read.", "quantifier": "every shape, item size, stride combination and offset of an array; every dense tensor", "why_tests_cant": "layouts are unbounded, and a test with one contiguous layout cannot tell byte strides, element strides and item sizes apart", "anchors": ["src/mlio-py/mlio/integ/numpy.py:as_tensor", "src/mlio-py/mlio/core/py_buffer.cc:make_device_array", "src/mlio-py/mlio/core/tensor.cc:to_py_buffer", "src/mlio/integ/dlpack.cc:as_dlpack"]}
{"id": "C65", "title": "An image example holds the centre crops of its images in order", "statement": "Each row of the tensor of an image example is the centre of the decoded, resized and converted image of one instance, in the order height, width, channel and in the order of the instances; with padding the bad instances are left out, the remaining rows are zero and counted as padding; otherwise a bad instance drops the example or raises.", "quantifier": "every batch of instances, image sizes, number of channels and handling of bad instances", "why_tests_cant": "batches and sizes are unbounded, and which instances are bad is arbitrary", "anchors": ["src/mlio/image_reader.cc:decode", "src/mlio/image_reader.cc:decode_core"]}
{"id": "C66", "title": "Reading a dataset of text files delivers its lines", "statement": "A text line reader over any list of text files, in UTF-8 with or without a byte order mark or in UTF-16 or UTF-32 with one, delivers the lines of the files in order, selected and shuffled as the options say, cut into batches of the batch size with the last one handled as requested, each line of each epoch once, and no error; it does so for every kind of stream, pattern of short reads, number of workers and thread schedule, in the first epoch and after every reset.", "quantifier": "every list of files and encodings, all options, batch sizes, worker and prefetch numbers, schedules, epochs", "why_tests_cant": "the whole chain from bytes to examples must compose: decoding, chunking, splitting, selection, shuffling, batching, the parallel pipeline and resets, for unbounded inputs and schedules", "anchors": ["src/mlio/text_line_reader.cc:Text_line_reader", "src/mlio/streams/utf8_input_stream.cc:make_utf8_stream", "src/mlio/record_readers/detail/chunk_reader.cc:make_chunk_reader", "src/mlio/instance_readers/instance_reader.cc:make_instance_reader", "src/mlio/parallel_data_reader.cc"]}
{"id": "C67", "title": "Reading a dataset of CSV files delivers its data rows", "statement": "A CSV reader over any list of files that hold tables written by the quoting rule, in UTF-8, UTF-16 or UTF-32, with or without headers, delivers the data rows of the files in order - every row but those up to the header - selected and shuffled as the options say and cut into batches, each value parsed and at the position of its row and column, with missing rows padded; each data row once in each epoch, and no error, for every kind of stream, pattern of short reads, number of workers and thread schedule, in the first epoch and after every reset.", "quantifier": "every list of files, tables, encodings, all options, batch sizes, worker and prefetch numbers, schedules, epochs", "why_tests_cant": "the whole chain from bytes to columns must compose, for unbounded tables and schedules; the reader keeps state across files and resets, so an epoch depends on its history", "anchors": ["src/mlio/csv_reader.cc:Csv_reader", "src/mlio/csv_reader.cc:make_record_reader", "src/mlio/record_readers/csv_record_reader.cc", "src/mlio/record_readers/detail/chunk_reader.cc:make_chunk_reader", "src/mlio/instance_readers/instance_reader.cc:make_instance_reader", "src/mlio/parallel_data_reader.cc"]}
{"id": "C68", "title": "Reading a dataset of RecordIO-protobuf files delivers its messages", "statement": "A RecordIO-protobuf reader over any list of files of valid frames, with instances in one frame or split over several, delivers the messages in order, selected and shuffled as the options say and cut into batches, the values of each feature of each message in the row of the message and the rest padded with zeros; a message that does not conform to the schema raises, drops its batch or is left out, as configured; each message once in each epoch, for every kind of stream, pattern of short reads, number of workers and thread schedule, in the first epoch and after every reset. The schema is that of the first message of the first epoch.", "quantifier": "every list of files, way of splitting, messages, schema, all options, batch sizes, worker and prefetch numbers, schedules, epochs", "why_tests_cant": "the whole chain from bytes to tensors must compose, for unbounded inputs and schedules, including decoding in parallel inside a batch", "anchors": ["src/mlio/recordio_protobuf_reader.cc:Recordio_protobuf_reader", "src/mlio/recordio_protobuf_reader.cc:decode_parallel", "src/mlio/record_readers/recordio_record_reader.cc", "src/mlio/instance_readers/core_instance_reader.cc", "src/mlio/parallel_data_reader.cc:ensure_schema_inferred"]}
{"id": "C69", "title": "Opening a data store gives a stream that delivers its contents", "statement": "A data store over a file (mapped into memory or not), over bytes in memory or over an S3 object is constructed with the compression asked for or, if it is to be inferred, with the one that the suffix of the name stands for; opening it gives a stream whose reads deliver the contents, inflated if they are compressed, for any sizes of reads and any pattern of short reads underneath, and zero bytes only at their end; a file or object that does not exist and a compression that is not supported are errors. A RecordIO reader over the store gets all its records.", "quantifier": "every store, contents, name, compression, pattern of reads and short reads", "why_tests_cant": "contents, block boundaries and read patterns are unbounded; a stream that reports the end too early loses data without any error", "anchors": ["src/mlio/data_stores/file.cc:File", "src/mlio/data_stores/in_memory_store.cc:In_memory_store", "src/mlio/data_stores/s3_object.cc:S3_object", "src/mlio/data_stores/compression.cc:make_inflate_stream", "src/mlio/streams/gzip_inflate_stream.cc:read"]}
{"id": "C70", "title": "Reading, peeking and resetting a data reader, and its byte count, agree with the dataset", "statement": "Whatever mix of calls is made and however the threads are scheduled, each call of read_example or peek_example returns the first example of the epoch that read_example has not returned yet; so what a peek returns is what the next call returns, and peeking loses and repeats nothing; the end is returned only when all examples were returned and nothing fails, an error only if the dataset has it, and both for ever after. reset drops a peeked example and sets the byte count to zero. num_bytes_read is the size of the batches of the examples returned so far and of some later ones that were read ahead, and at the end the size of all batches that gave an example.", "quantifier": "every dataset, decoder, sequence of calls, worker and prefetch numbers, and schedule", "why_tests_cant": "schedules and call sequences are unbounded; a lost or repeated example shows only under particular interleavings", "anchors": ["src/mlio/data_reader_base.cc:read_example", "src/mlio/data_reader_base.cc:peek_example", "src/mlio/data_reader_base.cc:reset", "src/mlio/parallel_data_reader.cc:read_example_core", "src/mlio/parallel_data_reader.cc:init_graph", "src/mlio/parallel_data_reader.cc:reset", "src/mlio/instance_batch.cc:size_bytes"]}
{"id": "C71", "title": "Schema inference happens once, from the first instance, and does not disturb reading", "statement": "Whenever read_schema, read_example, peek_example and reset are called, in any mix and under any schedule, the schema is what the reader infers from the first instance of an epoch (or from none if it has none), or the error met there; once inferred it never changes, over resets too; no batch is decoded before it is known; looking at the first instance loses and repeats no instance: the examples, the ends, the errors and the byte count are those of a reader without schema inference.", "quantifier": "every dataset, inference function, sequence of calls, worker and prefetch numbers, and schedule", "why_tests_cant": "call sequences and schedules are unbounded; an instance lost by the look-ahead shows only for particular orders of calls", "anchors": ["src/mlio/parallel_data_reader.cc:ensure_schema_inferred", "src/mlio/parallel_data_reader.cc:read_schema", "src/mlio/parallel_data_reader.cc:read_example_core", "src/mlio/instance_readers/instance_reader_base.cc:peek_instance"]}
{"id": "C72", "title": "The threads of a reader do not race", "statement": "Whatever calls are made, one at a time, and however the threads of a reader are scheduled, no two of them use a member of the reader at the same time without synchronization, one of them to write it.", "quantifier": "every dataset, inference function, sequence of calls, worker and prefetch numbers, and schedule", "why_tests_cant": "a data race is undefined behaviour of a schedule; a test runs few schedules, and on most machines a race shows no effect", "anchors": ["src/mlio/parallel_data_reader.cc:ensure_pipeline_running", "src/mlio/parallel_data_reader.cc:stop", "src/mlio/parallel_data_reader.cc:run_pipeline", "src/mlio/parallel_data_reader.cc:read_example_core", "src/mlio/parallel_data_reader.cc:ensure_schema_inferred", "include/mlio/parallel_data_reader.h"]}
{"id": "C73", "title": "A background thread that cannot be started is an error, and nothing else", "statement": "If the system refuses to start the background thread of a reader, the call that needs it raises; the thread that called keeps its signal mask, later calls return or raise, and reset and destruction work. If the system does not refuse, reading leaves the signal mask of the caller as it was, and the new thread blocks all signals.", "quantifier": "every dataset, sequence of calls, schedule, signal mask and place of the failure", "why_tests_cant": "failures of the system at a chosen call are not in reach of unit tests, and that a call never returns cannot be observed", "anchors": ["src/mlio/detail/thread.h:start_thread", "src/mlio/parallel_data_reader.cc:ensure_pipeline_running", "src/mlio/parallel_data_reader.cc:stop"]}
{"id": "C74", "title": "From data stores to examples: files, mapped files, memory and objects, plain or compressed", "statement": "A reader for text lines, CSV tables or RecordIO-protobuf messages that is given data stores \u2013 files, mapped into memory or not, bytes in memory or S3 objects, each as it is or compressed with gzip, text in any of the Unicode encodings \u2013 delivers exactly the selected lines, rows or messages of the stores, in the order of the epoch, in batches, and all of them when it signals the end; where the data are good it does not fail.", "quantifier": "every list of data stores of any kinds, contents, encodings, formats of compression, patterns of short reads, options, worker and prefetch numbers, and schedule", "why_tests_cant": "the composition of the store, the inflater, the text decoder, the record reader and the pipeline must hold for unbounded contents and all block boundaries", "anchors": ["src/mlio/data_stores/file.cc:open_read", "src/mlio/data_stores/in_memory_store.cc:open_read", "src/mlio/data_stores/s3_object.cc:open_read", "src/mlio/streams/utf8_input_stream.cc:make_utf8_stream", "src/mlio/text_line_reader.cc:make_record_reader", "src/mlio/csv_reader.cc:make_record_reader", "src/mlio/recordio_protobuf_reader.cc:make_record_reader", "src/mlio/instance_readers/core_instance_reader.cc"]}
{"id": "C75", "title": "A dataset that cannot be read to its end is reported, not silently shortened", "statement": "If one of the data stores of a dataset cannot be opened (it does not exist, or its compression is not supported) or cannot be read to its end (a RecordIO file damaged behind some records, a gzip file that was cut, text in UTF-16 or UTF-32 that is not well formed), then whatever the unreadable part and the stores behind it could have contained: what a reader delivers is a beginning of the epoch of the whole dataset, never a batch that is short or padded because of the failure and never an instance whose end is missing; it signals the end of the data only if nothing of the unreadable part is selected; otherwise the only thing it can report is an error of the data reader (or that an instance in front of it is bad).", "quantifier": "every list of good data stores, every store that cannot be read and whatever is behind it, every hypothetical continuation, options, batch size, schedule and epoch", "why_tests_cant": "the claim is about every position of the failure relative to shards, samples, shuffle windows, batches and prefetching, and about every possible continuation", "anchors": ["src/mlio/instance_readers/core_instance_reader.cc:read_instance_core", "src/mlio/instance_readers/sharded_instance_reader.cc", "src/mlio/instance_readers/ranged_instance_reader.cc", "src/mlio/instance_readers/sampled_instance_reader.cc", "src/mlio/instance_readers/shuffled_instance_reader.cc", "src/mlio/instance_batch_reader.cc:read_instance_batch", "src/mlio/parallel_data_reader.cc", "src/mlio/data_stores/file.cc:open_read"]}
{"id": "C76", "title": "Calls from Python return, whatever is logged", "statement": "Whatever is logged by the background threads of a reader, and however the threads are scheduled, a call of read_example, peek_example, the iterator or reset from Python returns: no thread waits for ever for the interpreter lock of Python.", "quantifier": "every dataset, decoder, sequence of calls, set of messages logged in the background, worker and prefetch numbers, and schedule", "why_tests_cant": "a deadlock needs a particular moment of the call relative to a message in the background; that a call never returns cannot be observed", "anchors": ["src/mlio-py/mlio/core/data_reader.cc:reset", "src/mlio-py/mlio/core/logging.cc:Py_log_message_handler", "src/mlio/logger.cc:handle_message", "src/mlio/parallel_data_reader.cc:stop", "src/mlio/instance_batch_reader.cc:read_instance_batch", "src/mlio-py/mlio/__init__.py"]}
{"id": "C77", "title": "Errors reach Python with class, message and causes", "statement": "An error of the library is raised in Python as the exception of the same class, so that handlers for it or a base class catch it, with the same message and with the errors nested in it as its chain of causes; an error of the system is an OSError with its number. An error met while reading a data store is a DataReaderError whose cause is that error.", "quantifier": "every error, chain of nested errors, message, data store id and cell value", "why_tests_cant": "chains, classes and messages are unbounded; messages contain data of the user, of which only some values break the translation", "anchors": ["src/mlio-py/mlio/core/error.cc:register_exceptions", "src/mlio-py/mlio/core/error.cc:throw_nested_error", "src/mlio/instance_readers/core_instance_reader.cc:handle_errors", "src/mlio/instance.cc:handle_errors", "src/mlio/csv_reader.cc:decode"]}
{"id": "C78", "title": "Sparse tensors keep their entries in SciPy and TensorFlow", "statement": "Converting a sparse tensor with one or two dimensions to a SciPy matrix gives a matrix with the shape and the entries of the tensor, converting it to a TensorFlow tensor gives one that has the same value at every position, and converting a SciPy matrix to a tensor gives one with its shape and entries; a sparse feature of a RecordIO-protobuf example becomes a matrix with a row for each instance that has the keys and values of the instance. What cannot be converted is refused with an exception.", "quantifier": "every sparse tensor, number of entries, order and repetition of entries, every value, every layout of the data of a matrix, every batch of messages", "why_tests_cant": "repeated positions, zeros, index ranges and layouts are unbounded; whether the conversion works depends on the values of the data", "anchors": ["src/mlio-py/mlio/integ/scipy.py:to_coo_matrix", "src/mlio-py/mlio/integ/scipy.py:to_tensor", "src/mlio-py/mlio/integ/tensorflow.py:to_tf", "include/mlio/tensor.h:Coo_tensor::indices", "src/mlio-py/mlio/core/tensor.cc:make_coo_tensor", "src/mlio/coo_tensor_builder.cc:build_core"]}
{"id": "C79", "title": "Strings and whole examples keep their contents in Python", "statement": "An array of strings read from a dataset in UTF-8 is the same array of texts in Python, however often it is read, and strings that are not text are refused with an exception. Converting an example to a pandas data frame gives a column for each feature, in order, and a row for each instance, whose cells are the values of the features.", "quantifier": "every array of strings, every number of reads, every example, shape and number of features", "why_tests_cant": "strings, shapes and features are unbounded; memory that was never written may look like a valid object in a test", "anchors": ["src/mlio-py/mlio/core/py_device_array.cc:make_or_get_string_buffer", "src/mlio-py/mlio/integ/pandas.py:to_pandas", "src/mlio-py/mlio/integ/numpy.py:as_numpy", "src/mlio/csv_record_tokenizer.cc:push_char"]}
{"id": "C80", "title": "Datasets of images are read completely, from any data store", "statement": "For every dataset of image files or of RecordIO files of images, in memory, on disk or in S3, compressed or not, an epoch delivers an example for each batch of the selected images, in order, with the centre of each good image in its row of the tensor and zero rows for padding; bad images are reported, skipped or padded as requested. A data store that cannot be loaded is reported, and never taken for the end of the data or for a bad image.", "quantifier": "every dataset, image, data store, option, schedule of threads and number of epochs", "why_tests_cant": "images, stores, batches and schedules are unbounded, and how many bytes a read delivers is chosen by the system", "anchors": ["src/mlio/image_reader.cc:decode", "src/mlio/image_reader.cc:make_record_reader", "src/mlio/instance.cc:load_bits_from_store", "src/mlio/instance.cc:read_stream", "src/mlio/core_instance_reader.cc:read_instance_core"]}
{"id": "C81", "title": "An Arrow file over a data store or a record holds its bytes", "statement": "as_arrow_file gives, for every data store that can be opened and is not compressed and for every record, a file over its bytes: whatever calls are made one after another, Read gives the bytes at the position and moves behind them, ReadAt gives the bytes asked for whatever was called before, Seek, Tell and GetSize agree with the bytes, reading until nothing is left gives all of them, a closed file refuses everything but Close, and errors are given as Arrow statuses. Calls with negative numbers are refused and do not change the file. Compressed data stores, which cannot be read at random, are refused at once.", "quantifier": "every data store (files, memory mapped or not, memory, objects), record, contents, way in which the operating system delivers a file, and sequence of calls with any int64 arguments", "why_tests_cant": "sequences of calls, the sizes of reads and the behaviour of the operating system are unbounded, and tests run on local files that are delivered at once", "anchors": ["src/mlio-py/mlio/integ/arrow/arrow_file.cc:Arrow_file", "src/mlio-py/mlio/integ/arrow/arrow_util.h:convert_exception", "src/mlio-py/mlio/integ/arrow/module.cc:as_arrow_file", "src/mlio/streams/memory_input_stream.cc:Memory_input_stream", "src/mlio/streams/file_input_stream.cc:File_input_stream", "src/mlio/streams/s3_input_stream.cc:S3_input_stream"]}
{"id": "C82", "title": "Listing files gives all of them, in an order that depends on their names only", "statement": "list_files gives every regular file at and below the paths that passes the filters, once, and nothing else; directory by directory in the natural order of the names. If something there cannot be read it is an error, and nothing is left out silently. The list is the same on every machine: it does not depend on the order in which the file system enumerates directories, on the order in which the paths are given, on the pages in which an object service delivers its keys, or on how sorting is done.", "quantifier": "every directory tree (any depth, any names, any enumeration order), list of paths, pattern, predicate, sorting routine, object service and paging", "why_tests_cant": "file systems enumerate directories in an order that differs from machine to machine, and workers that split a dataset into shards rely on having the same list; a test sees one file system", "anchors": ["src/mlio/data_stores/file_list.cc:list_files", "src/mlio/data_stores/file_list.cc:natural_sort", "src/mlio/data_stores/s3_object.cc:list_s3_objects", "third-party/natsort/strnatcmp.c:strnatcmp0"]}
{"id": "C83", "title": "Data stores are equal exactly if they stand for the same data", "statement": "Data stores that compare equal stand for the same data: the same bytes, treated alike. Comparing is an equivalence relation, does not depend on earlier comparisons, and equal data stores have equal hashes, so that they can be kept in sets and used as keys.", "quantifier": "every pair of data stores of any class (files, memory, objects, pipes, written in Python), path, address, URI, version and compression, and every state of the file system, the object service and the memory", "why_tests_cant": "identifiers are strings built from user-chosen parts; collisions need particular names that tests do not try, and hold or fail for all of them", "anchors": ["include/mlio/data_stores/data_store.h:operator==", "src/mlio/data_stores/in_memory_store.cc:id", "src/mlio/data_stores/s3_object.cc:id", "include/mlio/data_stores/file.h:id", "include/mlio/data_stores/sagemaker_pipe.h:id", "src/mlio-py/mlio/core/data_store.cc:Py_data_store"]}
{"id": "C84", "title": "Data stores, streams and readers written in Python are used as they are written", "statement": "A class derived in Python from DataStore, InputStream or DataReader can be used wherever one of the library can: its methods are called with the arguments given, their results are used, and an exception that they raise is an exception of the call.", "quantifier": "every Python class, every method and argument", "why_tests_cant": "classes are written by users; the property is about all of them, and the project has no test of one", "anchors": ["src/mlio-py/mlio/core/stream.cc:Py_input_stream", "src/mlio-py/mlio/core/data_store.cc:Py_data_store"]}
{"id": "C85", "title": "Parser options mean what they say", "statement": "With number_base = b, a field of an integer column is read as an integer in base b. With nan_values, a field of a floating-point column that is one of the given texts is NaN, and every other field keeps its value; columns of other types are not affected.", "quantifier": "every set of options (bases, lists of texts, with or without white space), column type and field, of any bytes and length", "why_tests_cant": "bases, texts and fields are unbounded; a test fixes a few of them", "anchors": ["src/mlio/util/number.cc:try_parse_float_core", "src/mlio/util/number.cc:try_parse_int_core", "src/mlio/parser.cc:make_parser", "include/mlio/parser.h:Parser_options"]}
{"id": "C86", "title": "Descriptors, mappings and temporary files are neither lost nor given back twice", "statement": "Whatever system calls fail, every stream on a file, mapped file and file-backed block has open and mapped exactly what it uses, an object that is gone or could not be made leaves nothing behind, in the process or on the disk, no call touches a descriptor or mapping of somebody else even after numbers have been reused, all memory of a block can be read, and programs that the process starts inherit nothing.", "quantifier": "every history of constructions, calls, closes, resizes and destructions, interleaved with what the rest of the process opens, closes, maps and unmaps, and every answer of the kernel to each system call", "why_tests_cant": "failures of system calls at each point, and reuse of numbers by other threads, cannot be produced at will by tests", "anchors": ["include/mlio/detail/file_descriptor.h:File_descriptor", "src/mlio/streams/file_input_stream.cc:File_input_stream", "src/mlio/memory/file_mapped_memory_block.cc:init_memory_map", "src/mlio/memory/file_backed_memory_block.cc:make_temporary_file", "src/mlio/memory/file_backed_memory_block.cc:resize"]}
{"id": "C87", "title": "Options set from Python reach the reader", "statement": "The four classes of options can be constructed with arguments by position or by name; an option has the value of its argument or its documented default. Every option is also an attribute: assigning a value of the documented type is accepted and changes this option of this object and nothing else, reading gives the current value, and what the attribute parser_options gives is a part of the object. A call that raises changes nothing. A reader has the options its objects have when it is constructed, the last assigned value of each, and keeps them whatever happens to the objects later.", "quantifier": "every history of constructing options (any arguments, positional and named), assigning and reading attributes of any objects, and constructing readers of all four kinds", "why_tests_cant": "there are more than forty options of four classes, two orders for each of them, aliases and unboundedly many histories; a swapped argument of the same type is only seen by a test of exactly that option", "anchors": ["src/mlio-py/mlio/core/data_reader.cc:make_data_reader_params", "src/mlio-py/mlio/core/data_reader.cc:make_csv_reader_params", "src/mlio-py/mlio/core/data_reader.cc:make_image_reader_params", "src/mlio-py/mlio/core/data_reader.cc:make_parser_options", "src/mlio-py/mlio/core/data_reader.cc:make_csv_reader", "src/mlio-py/mlio/core/data_reader.cc:register_data_readers", "doc/python/data_reader.md:DataReaderParams"]}
{"id": "C88", "title": "Data stores can be shared by threads", "statement": "Data stores are handed to readers and used from any threads: id and open_read of the same or of different data stores may be called from several threads at once without a data race. id gives every thread the name of the data store, and the number given to a SageMaker pipe is used for the first stream on it and only for that.", "quantifier": "every number of threads and data stores of all kinds, every interleaving of their calls of id and open_read, at every point of them", "why_tests_cant": "a race depends on two threads being inside the first call of id at the same time; tests see it rarely and its effect (a torn string) even less", "anchors": ["src/mlio/in_memory_store.cc:In_memory_store::id", "src/mlio/s3_object.cc:S3_object::id", "src/mlio/sagemaker_pipe.cc:Sagemaker_pipe::open_read", "src/mlio/streams/sagemaker_pipe_input_stream.cc:Sagemaker_pipe_input_stream", "src/mlio-py/mlio/core/data_store.cc:Py_data_store::id", "src/mlio/csv_reader.cc:Csv_reader::decode"]}
{"id": "C89", "title": "A program that lists files, makes a reader and loops over epochs sees the dataset", "statement": "A program lists files, makes a text, CSV or RecordIO-protobuf reader over them and then calls read_schema, read_example, peek_example and reset in any order, for any number of epochs. In every epoch the calls return the batches of the selected records of the files, each once, in an order that the options allow, what was peeked at is returned again, and the end comes after all of them and stays. They fail only because of a record that is bad, if that is to be an error. The schema is always the same. No call hangs and nothing races, however the threads are scheduled.", "quantifier": "every directory tree, content of files, encoding, compression, reader options, number of threads, every sequence of calls and every schedule of the threads behind them", "why_tests_cant": "tests run a few files through one order of calls and whichever schedules happen; the statement composes listing, opening, decompressing, transcoding, splitting, batching, decoding in parallel and the interface for all of them", "anchors": ["src/mlio/data_stores/file_list.cc:list_files", "src/mlio/data_stores/file.cc:File", "src/mlio/text_line_reader.cc:Text_line_reader", "src/mlio/csv_reader.cc:Csv_reader", "src/mlio/recordio_protobuf_reader.cc:Recordio_protobuf_reader", "src/mlio/parallel_data_reader.cc:Parallel_data_reader", "src/mlio/data_reader_base.cc:Data_reader_base"]}
{"id": "C90", "title": "Warnings tell what was left out, and reach the handler", "statement": "If warn_bad_instances is set, a CSV reader logs one warning for each bad row, with its data store, its index and the first thing that is wrong with it. With skip_warn it logs one warning for each example that it skips, with pad_warn one for each example that it pads, with the number of bad rows, with truncate_warn one for each value that it cuts, with drop_warn one if it drops the last example. It logs nothing else. A warning reaches the handler exactly if the log level allows it at that time, and in Python it reaches the logger.", "quantifier": "every batch of rows, option, log level at any time, schedule of parallel decoding, and text of the values", "why_tests_cant": "tests look at the data that is read, not at the log, and for few rows; that nothing else is logged and that no warning is lost ranges over all inputs and schedules", "anchors": ["src/mlio/csv_reader.cc:decode", "src/mlio/logger.cc:handle_message", "src/mlio/data_reader_base.cc:Data_reader_base", "src/mlio/instance_batch_reader.cc:read_instance_batch", "src/mlio-py/mlio/core/logging.cc:Py_log_message_handler"]}
{"id": "C91", "title": "A bad instance is reported as what it is", "statement": "A RecordIO-protobuf or image reader has something to say about an instance exactly if it is bad, and what it says is true: which feature is unknown, missing, of another type, shape or number of values, or that the image cannot be decoded or is smaller than wanted, with the sizes. With warn_bad_instances this is logged with the data store and the number of the instance, for each bad instance in order, or for the first if the example is not padded; with skip_warn and pad_warn one message about the example follows, with the number of bad instances.", "quantifier": "every schema, batch of messages or images, option, and behaviour of the image library within its contract", "why_tests_cant": "tests look for an error on a few bad instances and do not read the message; that each message is true of each bad instance ranges over all schemas and inputs", "anchors": ["src/mlio/recordio_protobuf_reader.cc:Decoder", "src/mlio/recordio_protobuf_reader.cc:decode", "src/mlio/image_reader.cc:decode_core", "src/mlio/image_reader.cc:decode"]}
{"id": "C92", "title": "A read error names the place where it is", "statement": "If an instance cannot be read because a data store cannot be opened or a record in it cannot be read, the error says so: it names the data store, which is the first one that cannot be read to its end, and if it names a record, then the one that cannot be read, counted from zero within the data store. It says the same at every further attempt.", "quantifier": "every dataset, history of reads and resets, kind of record reader, and position of the damage", "why_tests_cant": "tests check the class of the error for one damaged file, rarely the message, and not after other data stores or repeated reads", "anchors": ["src/mlio/instance_readers/core_instance_reader.cc:handle_errors", "src/mlio/instance_readers/core_instance_reader.cc:read_record", "src/mlio/instance_readers/core_instance_reader.cc:init_next_record_reader"]}
{"id": "C93", "title": "An S3 object is read as one version, also while it changes and requests fail", "statement": "The bytes that are read from a stream of an S3 object are those of one version of it, in order, whatever is stored, deleted or removed meanwhile, and whichever requests fail: a read whose request fails reports the reason and leaves the position where it was, so that reading can be resumed without a gap or a repetition, and the end of the object is reported only at its end.", "quantifier": "every history of changes in the service, calls on the stream and failing requests, and all contents", "why_tests_cant": "a test has one object that stays as it is and a connection that works; what is read depends on when other users store new versions and which requests fail", "anchors": ["src/mlio/s3_client.cc:S3_client::read_object", "src/mlio/s3_client.cc:throw_s3_error", "src/mlio/streams/s3_input_stream.cc:S3_input_stream::read", "src/mlio/streams/s3_input_stream.cc:S3_input_stream::fetch_size"]}
{"id": "C94", "title": "S3 clients can be made at any time", "statement": "After any history of calls an S3 client can be made, and it has the keys, region and scheme that were asked for, or else those of the profile or the machine. The AWS SDK is started only when it is not running and stopped only when it is.", "quantifier": "every history of initializing and deallocating the SDK and making clients, all options, and all machines", "why_tests_cant": "a test makes one client in a process; the failure needs a second one, and the race another thread", "anchors": ["src/mlio/s3_client.cc:make_s3_client", "src/mlio/s3_client.cc:get_default_aws_credentials", "src/mlio/init_aws.cc:initialize_aws_sdk", "src/mlio/init_aws.cc:deallocate_aws_sdk"]}
{"id": "C95", "title": "Writing into a record changes that record only", "statement": "Python programs get records as writable buffers. A write changes the record it is made to and nothing else: other records keep their bytes, later reads return what they would have returned, and the data store has the same contents as before.", "quantifier": "every sequence of reads, copies, releases and writes, every stream (short reads, failures), chunk size, contents of fresh memory, and all four record formats", "why_tests_cant": "records share the memory of chunks with each other and with what has not been read yet; whether a write is seen elsewhere depends on chunk sizes, on which records are still held and on when the memory is used again", "anchors": ["src/mlio-py/mlio/core/record_reader.cc:register_record_readers", "src/mlio/record_readers/detail/default_chunk_reader.cc:Default_chunk_reader::read_chunk", "src/mlio/record_readers/detail/in_memory_chunk_reader.cc:In_memory_chunk_reader::read_chunk", "src/mlio/record_readers/record_reader_base.cc:Record_reader_base::peek_record", "src/mlio/memory/file_mapped_memory_block.cc:File_mapped_memory_block::init_memory_map"]}
{"id": "C96", "title": "Examples in Python are lists of named features", "statement": "In Python, len(), [], in and iteration of an example agree with each other and with the schema: the feature of a name or a position is the one given when the example was made, membership means that [] gives a feature, and a loop delivers each feature once in order. None of it depends on which variables refer to the example meanwhile, and None in place of an object is an error.", "quantifier": "every Python program made of creating examples, assigning and deleting variables, iterating, indexing, membership tests, in any order, any number of variables, examples and iterators", "why_tests_cant": "whether an iterator outlives its example depends on the variables of the program and on when the interpreter destroys an object", "anchors": ["src/mlio-py/mlio/core/example.cc:register_example", "src/mlio-py/mlio/core/example.cc:get_feature", "src/mlio/example.cc:Example::Example", "src/mlio/example.cc:Example::find_feature"]}
{"id": "C97", "title": "A schema never changes", "statement": "Whatever a Python program does with a schema, its list of attributes, the positions of names, equality, attributes kept in variables and the features of its examples stay those of the attributes the schema was made of.", "quantifier": "every schema and every sequence of statements that look at the schema, its attribute list and attributes, or use the methods of the list", "why_tests_cant": "the list shares memory with the schema and with the reader; a program sees stale or freed memory only for some sequences of statements", "anchors": ["src/mlio-py/mlio/core/schema.cc:register_schema", "src/mlio-py/mlio/core/module.h", "src/mlio/schema.cc:Schema::get_index", "include/mlio/schema.h:Schema::attributes"]}
{"id": "C98", "title": "Memory comes from the chosen allocator, and large blocks are kept in files", "statement": "Each allocation is served by the allocator that the program has set, or by the default one. With the file-backed allocator, a block that is larger than the threshold takes no memory of the process heap, whether it was allocated or resized to that size; the threshold is the given one, or a quarter of the memory of the machine, at most 512 MiB.", "quantifier": "all sizes, thresholds and memory sizes of the machine, every sequence of resizings, every sequence of calls that initialize the library, set allocators and allocate", "why_tests_cant": "where a block is depends on the history of its sizes, and which allocator serves depends on the order of all earlier calls", "anchors": ["src/mlio/memory/file_backed_memory_allocator.cc:Hybrid_memory_block::resize", "src/mlio/memory/file_backed_memory_allocator.cc:File_backed_memory_allocator::allocate", "src/mlio/memory/memory_allocator.cc:memory_allocator", "src/mlio/init.cc:initialize"]}
{"id": "C99", "title": "Distinct texts are counted by their published hashes, wherever they are", "statement": "The estimate of how many different texts (or words) a column holds depends only on the set of their XXH32 hashes, the published 32 bit hash with seed zero. It is the same on every machine and in every build, and for texts at any address; hashing reads nothing outside of a text.", "quantifier": "all texts of any length and content, all addresses, byte orders and variants of the code, all sequences of texts", "why_tests_cant": "the hash has different paths for each length modulo 16, each alignment and each byte order, and must agree with the published algorithm on all of them", "anchors": ["src/mlio-py/mlio/contrib/insights/hll/xxhash.c:XXH32", "src/mlio-py/mlio/contrib/insights/hll/hyperloglog.cc:HyperLogLog::add", "src/mlio-py/mlio/contrib/insights/column_statistics.h:Column_analysis"]}
{"id": "C100", "title": "The level set from Python decides which messages are recorded", "statement": "After mlio.set_log_level(l) Python's logger 'mlio' records exactly the library's messages of level l and more urgent ones, each once, in order, with its text and Python's level number, until the level is set again; OFF means none. The root logger's level does not matter. Whatever else a program does with Python's loggers can only suppress records. The logger 'mlio' is enabled for exactly the levels that are let through.", "quantifier": "all programs that set levels in C++ and Python, disable logging, set and remove the handler, and all interleaved messages", "why_tests_cant": "the threshold is kept in two places, and which of them decides depends on the history of calls", "anchors": ["src/mlio-py/mlio/__init__.py:set_log_level", "src/mlio-py/mlio/__init__.py:_map_log_level", "src/mlio/logger.cc:is_enabled_for", "src/mlio-py/mlio/core/logging.cc:Py_log_message_handler"]}
{"id": "C101", "title": "analyze_dataset called from Python returns", "statement": "mlio.contrib.insights.analyze_dataset(reader, ...) comes back for every dataset and every schedule of the background threads, whatever is logged and whether or not the data stores are written in Python: with the statistics of all examples of the dataset if nothing fails, else with an exception (an error of reading or decoding, or that there is no example).", "quantifier": "all batch readers, datasets, decoders, sizes of the pipeline, log messages and calls into Python of the background bodies, and all schedules", "why_tests_cant": "whether the call comes back depends on which thread has the interpreter lock while another one waits for it, in every schedule", "anchors": ["src/mlio-py/mlio/contrib/insights/module.cc:analyze_dataset", "src/mlio-py/mlio/core/logging.cc:Py_log_message_handler", "src/mlio-py/mlio/core/data_store.cc:Py_data_store", "src/mlio/parallel_data_reader.cc:read_example_core"]}
{"id": "C102", "title": "The dictionary of a column analysis", "statement": "ColumnAnalysis.to_dict() gives, for every column that was analysed, a dictionary with all statistics: the counts and lengths as decimal numbers, the extremes and averages as decimal numbers that can be told apart, the first cell, the captured values, the estimates of the numbers of distinct cells and words, and the median of the first ten thousand numbers. Calling it again gives the same dictionary.", "quantifier": "all columns of all datasets, all numbers of calls, all implementations of the selection of the median that keep its contract", "why_tests_cant": "the order in which the sample is left by the selection, the digits of every number and every text that may be in a cell matter", "anchors": ["src/mlio-py/mlio/contrib/insights/module.cc:to_dict", "src/mlio-py/mlio/contrib/insights/column_statistics.h:estimate_median_approx", "src/mlio-py/mlio/contrib/insights/column_statistics.h:Column_analysis"]}
{"id": "C103", "title": "A failed call fails again", "statement": "If the data cannot be read from some place on, the call that meets this place fails; later calls fail in the same way until reset, and never return data or the end of the data instead. In particular, if the first instance cannot be read, then read_schema, read_example and peek_example fail with that error, however often they are called and whatever the options are.", "quantifier": "all contents of the data stores, all options, all sequences of calls and resets, all schedules", "why_tests_cant": "tests call once and check the exception; what a program gets that goes on after an exception depends on the state that the exception leaves in every layer", "anchors": ["src/mlio/instance_readers/core_instance_reader.cc:read_instance_core", "src/mlio/instance_readers/sampled_instance_reader.cc:fill_buffer_from_inner", "src/mlio/instance_readers/ranged_instance_reader.cc:read_instance_core", "src/mlio/instance_readers/shuffled_instance_reader.cc:read_instance_core", "src/mlio/parallel_data_reader.cc:ensure_schema_inferred", "src/mlio/record_readers/stream_record_reader.cc:read_record_core"]}
{"id": "C104", "title": "Options that make no sense are refused", "statement": "A reader with options that make no sense - a batch size of 0, a shard index that is not less than the number of shards, a sample ratio that is not a number between 0 and 1 - is refused with invalid_argument when it is made. All other options are accepted, the reader then selects by the ratio that was passed, and reading well-formed data never fails and has no undefined behaviour.", "quantifier": "all values of the options, all floats as sample ratio among them infinities, subnormal numbers and NaN; all datasets", "why_tests_cant": "there are 2^32 sample ratios and unboundedly many combinations with the other options and datasets", "anchors": ["src/mlio/instance_readers/sampled_instance_reader.cc:Sampled_instance_reader", "src/mlio/instance_readers/sampled_instance_reader.cc:fill_buffer_from_inner", "src/mlio/instance_readers/sharded_instance_reader.cc:Sharded_instance_reader", "src/mlio/instance_readers/instance_reader.cc:make_instance_reader", "src/mlio/instance_batch_reader.cc:Instance_batch_reader", "src/mlio/parallel_data_reader.cc:Parallel_data_reader"]}
{"id": "C105", "title": "Aligned reads", "statement": "While records are decoded, integers of four bytes are read only at addresses that are multiples of four, whatever the data are, how the stream cuts them and where the memory of an in-memory data store begins; other reads have undefined behaviour.", "quantifier": "all contents of streams and stores, all ways to cut them, all addresses of memory, all sequences of reading, copying and releasing records", "why_tests_cant": "processors that tests run on read unaligned integers without complaint, and memory that tests allocate is aligned", "anchors": ["src/mlio/record_readers/detail/recordio_header.cc:decode_recordio_header", "src/mlio/record_readers/recordio_record_reader.cc:decode_record", "src/mlio/record_readers/parquet_record_reader.cc:is_magic_number", "src/mlio/record_readers/parquet_record_reader.cc:is_footer", "include/mlio/span.h:as_span", "src/mlio/record_readers/detail/default_chunk_reader.cc:read_chunk", "src/mlio/record_readers/detail/in_memory_chunk_reader.cc:read_chunk"]}
{"id": "C106", "title": "Buffers are given back with the interpreter lock", "statement": "The buffer of a Python object that backs an in-memory data store is given back exactly once, after the last store, stream, slice, record or reader that refers to it has gone, and by a thread that holds the Python interpreter lock.", "quantifier": "all Python programs that make, use and delete in-memory stores, their streams, slices, records, Parquet record readers and data readers, all contents", "why_tests_cant": "a buffer given back without the lock corrupts the counts of Python objects only if another thread happens to run at that moment", "anchors": ["src/mlio-py/mlio/core/py_memory_block.cc:Py_memory_block::~Py_memory_block", "src/mlio-py/mlio/core/data_store.cc:make_in_memory_store", "src/mlio-py/mlio/core/record_reader.cc:register_record_readers", "src/mlio-py/mlio/core/stream.cc:read_input_stream", "src/mlio/record_readers/detail/chunk_reader.cc:make_chunk_reader", "src/mlio/record_readers/stream_record_reader.cc:read_record_core", "src/mlio/record_readers/record_reader_base.cc:read_record", "src/mlio/streams/memory_input_stream.cc:close"]}
{"id": "C107", "title": "A SageMaker pipe delivers what is written and waits for a bounded time", "statement": "What the calls of read on a SageMaker pipe return is what the service writes, in order; the end of the stream is reported only after the service has closed its end and everything has been returned. Opening waits for at most two seconds and the given time, reading for at most the given time, however many signals arrive, and they fail only if the FIFO does not appear or nothing is written for all of that time.", "quantifier": "all ways in which the service makes the FIFO, connects, writes and closes, all signals, all schedules, all sizes of reads, all timeouts, all numbers of open files", "why_tests_cant": "the outcome depends on how writes, signals and the passing of time fall between the system calls", "anchors": ["src/mlio/streams/sagemaker_pipe_input_stream.cc:Sagemaker_pipe_input_stream::read", "src/mlio/streams/sagemaker_pipe_input_stream.cc:Sagemaker_pipe_input_stream::open_fifo", "src/mlio/streams/sagemaker_pipe_input_stream.cc:Sagemaker_pipe_input_stream::wait_for_data", "src/mlio/streams/sagemaker_pipe_input_stream.cc:Sagemaker_pipe_input_stream::sleep", "src/mlio/detail/system_call.h:temp_failure_retry", "src/mlio-py/mlio/core/data_store.cc:SageMakerPipe"]}
{"id": "C108", "title": "The estimated number of distinct texts", "statement": "The estimated number of distinct texts of a column is a number for every column; it is zero for no texts, and exact, up to texts in the same bucket, as long as there are at most 255 buckets with texts; it does not depend on order and repetitions and does not go down when texts are added.", "quantifier": "all columns of texts of any size and contents, all builds of the hash, all addresses", "why_tests_cant": "the estimate is a formula of 65536 registers with three regimes; where they meet and where the formula is undefined is reached by columns that no test contains", "anchors": ["src/mlio-py/mlio/contrib/insights/hll/hyperloglog.cc:HyperLogLog::estimate", "src/mlio-py/mlio/contrib/insights/hll/hyperloglog.cc:HyperLogLog::HyperLogLog", "src/mlio-py/mlio/contrib/insights/column_statistics.h:estimate_string_cardinality", "src/mlio-py/mlio/contrib/insights/column_statistics.h:estimate_string_vocab_cardinality"]}
{"id": "C109", "title": "Data stores written in Python", "statement": "A data store that is given to a reader, in the dataset of its parameters, is the one the reader opens, whether it is of the library or of a class of the user derived from DataStore, and whatever variables the program has kept or dropped in between.", "quantifier": "all programs that make data stores, put them into lists, parameters and readers, copy, overwrite and delete variables, read datasets back and open data stores, with any number of variables, stores and steps", "why_tests_cant": "whether a Python object is still there depends on every reference the program has dropped before; tests keep their data stores in local variables, which hides it", "anchors": ["src/mlio-py/mlio/core/data_store.cc:Py_data_store::open_read", "src/mlio-py/mlio/core/data_reader.cc:make_data_reader_params", "src/mlio-py/mlio/core/data_reader.cc:register_data_readers"]}
{"id": "C110", "title": "Loops over readers in Python", "statement": "Looping over a reader in Python gives each example of the epoch once, in order, and then ends, or raises the error; loops, iterators, direct calls and datasets share one position; after reset a loop gives the whole dataset again; and every iteration over the TensorFlow dataset made of a reader gives the requested features of all examples of the dataset.", "quantifier": "all programs that loop over a reader, break loops off, make iterators, read, peek, reset and iterate over the dataset, interleaved in any order; any number of examples, features and epochs, with or without an error at the end", "why_tests_cant": "the position is shared by everything that was done before; tests loop once", "anchors": ["src/mlio-py/mlio/core/data_reader.cc:Py_data_iterator", "src/mlio-py/mlio/core/data_reader.cc:register_data_readers", "src/mlio-py/mlio/integ/tensorflow.py:make_tf_dataset"]}
{"id": "C111", "title": "Tensors shared with other libraries stay in memory as long as they are used", "statement": "A tensor that was handed to another library through DLPack or the buffer protocol stays in memory, with its elements, until the last array, buffer, capsule or tensor object that refers to it is gone, in whatever order they go, and is then freed exactly once; a capsule can be taken only once.", "quantifier": "all programs that make tensors, export them, take capsules, make buffers, drop objects in any order and read elements, of any length", "why_tests_cant": "memory errors depend on the order in which objects of three libraries are destructed", "anchors": ["src/mlio/integ/dlpack.cc:as_dlpack_op::visit", "src/mlio-py/mlio/core/integ.cc:to_dlpack_capsule", "src/mlio-py/mlio/core/tensor.cc:to_py_buffer", "src/mlio-py/mlio/core/py_device_array.h:Py_device_array", "src/mlio-py/mlio/core/py_buffer.cc:Py_buffer_container"]}
{"id": "C112", "title": "Protobuf messages are read as they were written", "statement": "The bits of an instance are read as the message `Record` of recordio_protobuf.proto that they are in the wire format of protobuf: every message that is written is read back with all its labels and features, their names, types, values, keys and shapes; unknown fields, groups and the way in which repeated numbers are packed make no difference; the last of several entries of a name counts, and within an entry the parts may come in any order, where tensors of one type are joined and other values are replaced; bytes that are not well formed, on any level, are no message.", "quantifier": "all messages of any number of labels and features of all types and sizes, all texts of the wire format, all byte strings", "why_tests_cant": "the values, nestings, orders and encodings of messages are unbounded, and the sizes at which conversions overflow are too large for tests", "anchors": ["src/mlio/recordio_protobuf_reader.cc:parse_proto", "src/mlio/detail/protobuf/recordio_protobuf.proto:Record", "src/mlio/detail/protobuf/recordio_protobuf.proto:Value", "src/mlio/recordio_protobuf_reader.cc:Decoder::decode"]}
{"id": "C113", "title": "Numbers in floating-point columns are read as the nearest value", "statement": "A field of a float32 or float64 column that is a number (decimal or hexadecimal, with an optional point and exponent, white space around it) is read as the number of that type nearest to it, the even one of two, with its sign; so numbers of the type are read exactly, their order is kept, and different texts for a number are read alike. Numbers beyond the range are refused as too large and never become infinities, like the texts for infinities. The texts for NaN, and those the user names, are NaN. Everything else is refused. Fields whose type is inferred are floating-point numbers exactly if they are such numbers and no integers that fit.", "quantifier": "all byte strings as fields, both types, all sets of texts for NaN; all numbers of any number of digits and any exponent", "why_tests_cant": "there are infinitely many texts and 2^64 values; wrong roundings occur for few of them", "anchors": ["src/mlio/util/number.cc:try_parse_float_core", "src/mlio/parser.cc:make_parser", "src/mlio/data_type.cc:infer_data_type", "include/mlio/parser.h:Parser_options"]}
{"id": "C114", "title": "A pattern selects exactly the files that match it", "statement": "list_files and list_s3_objects with a pattern (characters, ?, *, sets in brackets, backslashes) return exactly the files and objects whose names match it, in the order of the listing without a pattern; the empty pattern selects everything.", "quantifier": "all patterns made of characters, ?, * and bracket sets with ranges and negation; all directory trees, all pages of objects, all predicates", "why_tests_cant": "patterns and directory trees are unbounded; tests try a few extensions", "anchors": ["src/mlio/data_stores/file_list.cc:list_files", "src/mlio/data_stores/s3_object.cc:list_s3_objects", "include/mlio/data_stores/file.h:File_list_options", "doc/python/data_store.md"]}
{"id": "C115", "title": "Objects of the library can be compared with anything in Python", "statement": "In Python, == and != between device kinds, devices, attributes, schemas or data stores and any other object give an answer and raise nothing: equal exactly if both are of the same class and have the same values, != is the negation, equal objects have equal hashes, and membership in a list does not depend on the order of the list.", "quantifier": "all objects of the five classes, all other objects, all lists of objects", "why_tests_cant": "the pairs of objects and the lists are unbounded; tests compare a few objects of the same class", "anchors": ["src/mlio-py/mlio/core/py_device_array.cc:register_device_array", "src/mlio-py/mlio/core/schema.cc:register_schema", "src/mlio-py/mlio/core/data_store.cc:register_data_stores", "include/mlio/device.h:operator=="]}
{"id": "C116", "title": "Local files are read as they are, also while they change", "statement": "The bytes that are read from a local file are those of the file, in order: all of them if the file stays as it is, whatever kind of file it is; if it is appended to meanwhile, a first part of what it becomes, and the end is reported only after everything that was there when it was opened; if it is cut meanwhile, a first part of what it was. No read ends the program.", "quantifier": "all files with and without a size known to the system, all histories of reads (with short reads) between which the file is appended to or cut, mapped into memory or not", "why_tests_cant": "the histories of changes and reads, and the sizes of files, are unbounded; tests read files that nobody changes", "anchors": ["src/mlio/data_stores/file.cc:File::open_read", "src/mlio/memory/file_mapped_memory_block.cc:init_memory_map", "src/mlio/streams/file_input_stream.cc:read", "src/mlio/streams/memory_input_stream.cc:read"]}
{"id": "C117", "title": "Announcing the size of records changes no record", "statement": "A program may announce the size of the records it expects at any time between the calls that read them, and may ask for the expected size: the records, and the errors, are the same as without, in the same order; every call returns; and the size that is reported is at least the last one announced, and no more than twice as much unless it was greater before.", "quantifier": "all contents of RecordIO, Parquet and text streams, in memory or read in chunks of any size with short reads, and all histories of announcements, questions and reads", "why_tests_cant": "histories and contents are unbounded, and sizes are any 64 bit number; tests announce no sizes", "anchors": ["src/mlio/record_readers/stream_record_reader.cc:set_record_size_hint", "src/mlio/record_readers/stream_record_reader.cc:record_size_hint", "src/mlio/record_readers/detail/default_chunk_reader.cc:set_chunk_size_hint", "src/mlio/record_readers/detail/in_memory_chunk_reader.h:set_chunk_size_hint"]}
{"id": "C118", "title": "Every value of a column's type can be written in a table", "statement": "For every data type that a column of a CSV dataset can be given, and every value of that type - every integer in its range, every finite number of its floating-point format, every text - there is a text that a field of the column may hold and that is read as exactly this value.", "quantifier": "all data types, all their values, all parser options", "why_tests_cant": "the values of 64 bit types and the texts for them cannot be enumerated; tests parse a few numbers of a few types", "anchors": ["src/mlio/parser.cc:make_parser_core", "src/mlio/parser.cc:make_parser", "src/mlio/util/number.cc:try_parse_int", "src/mlio/util/number.cc:try_parse_float", "src/mlio/csv_reader.cc:decode"]}
