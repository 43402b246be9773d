# A Lean model of awslabs/ml-io

This directory holds a formal model of parts of ml-io (C++ sources in `/repo`),
a list of properties users rely on (`properties.jsonl`), and machine-checked
proofs of them in Lean 4 (`lean/Verif`).

## How the model is laid out

| Directory | Content |
|---|---|
| `Verif/Model/*.lean` | the code, function by function, each definition citing file and lines |
| `Verif/Spec/*.lean`  | small specifications written without reference to the model |
| `Verif/Proofs/*.lean`| helper lemmas |
| `Verif/Props/*.lean` | the property theorems, each followed by a concrete case meeting its hypotheses |

Conventions.

* Bytes are `UInt8`, buffers are `List UInt8`; sizes are `Nat` unless the
  property is about wrap-around, where they are reduced modulo 2^64 (or 2^32)
  explicitly.
* A C++ function that can throw returns `Res α`: `ok a`, `err e` (a C++
  exception of class `e`) or `ub w` (undefined behaviour, with the reason `w`).
  No theorem assumes UB away: either it is proved unreachable, or reachability is
  proved with a witness.
* Unbounded loops whose termination is itself a claim take fuel; running out of
  fuel is a distinct outcome (`err .diverges`), and theorems show which fuel suffices, so they imply
  termination.
* Concurrency (the TBB flow graph) is a nondeterministic transition system; a
  theorem quantifies over all its executions.
* Only C108 uses Mathlib, for real numbers and logarithms; everything else is core Lean.
* Random generators, hash functions of containers, `inflate`, `iconv`, OpenCV, the S3 service and
  the operating system are parameters of the model; what is assumed about each is
  an explicit hypothesis of the theorems that need it.

When the code violates a property, the negation is proved with a concrete witness
(theorem name ends in `_violated`), the part that does hold is proved with the suffix `_partial`,
and the deviation is listed under "Deviations found".

## Plan per property

| Id | Modelled | Proof |
|---|---|---|
| C01 | RecordIO header and record decoder, encoder as spec | round-trip, induction over records |
| C02 | same, on arbitrary bytes, slices validated | case analysis of the decoder |
| C03 | chunk reader, stream record reader, adversarial short reads | decoder is prefix-stable; generic simulation theorem |
| C04 | core instance reader over stores of records | induction over parts; spec is a grouping function |
| C05 | text line reader with one-past-the-end read as UB | generic simulation theorem; counterexample with CRLF on a chunk edge |
| C06 | same | refinement to a line-splitting spec |
| C07 | quoted CSV row reader | generic simulation theorem for all states |
| C08 | CSV tokenizer state machine | round-trip with writer spec |
| C09 | C07 + C08 | round-trip over tables, with comments, blank lines and limits (`Spec.Sheet`) |
| C10 | both state machines | simulation between them |
| C11 | `check_line_length`, `read_line` | exact characterisation; the boundary is off by one (counterexample) |
| C12 | tokenizer with limit | simulation limited/unlimited |
| C13 | `decode_text_record` | refinement to filter over lines |
| C14 | `skip_utf8_bom` | counterexample (stripped at each row), partial |
| C15 | Parquet scanner | bounds and prefix stability |
| C16 | the three reader bases | simulation peek/no-peek |
| C17–C23 | instance readers as state machines over an inner reader | stream semantics `Yields`, compositional |
| C24 | batch reader | induction; counterexample for `pad_warn` |
| C25–C29 | flow graph as transition system | inductive invariant over all interleavings; measure for progress |
| C30–C32 | CSV decoder | refinement to row spec; counterexamples |
| C33–C36 | CSV schema functions | termination measure, invariants, counterexamples |
| C37–C38 | number parsing with the external `absl`/`double-conversion` parsers as parameters or exact models | case analysis |
| C39–C41 | COO builder, protobuf decoder | mixed-radix arithmetic; counterexamples |
| C42 | dense tensor validation modulo 2^64 | induction over dimensions; counterexamples for overflow |
| C43 | schema | induction |
| C44 | slices with 64-bit arguments | arithmetic |
| C45 | memory stream | refinement to cursor |
| C46 | UTF-8 stream | refinement; counterexample for tiny non-seekable UTF-16 streams |
| C47 | gzip stream over abstract inflate | counterexample (early zero), partial |
| C48 | FIFO table | invariant over histories; counterexample (double close) |
| C49 | `read_stream` | refinement, termination; counterexample (empty seekable stream) |
| C50 | chunk buffer with reference counts | invariant over histories |
| C51 | `strnatcmp0`, listing | embedding in a linear order |
| C52 | string functions | case analysis |
| C53–C54 | HyperLogLog registers, column statistics (exact rationals, NaN as a distinct value) | order independence; counterexamples |
| C55 | hybrid block | refinement; counterexample for shrinking |
| C56 | integer geometry | arithmetic |
| C57 | handle/heap model | invariant over histories |
| C58 | type tables | exhaustive finite case analysis |
| C59 | CSR constructor | the constructor dereferences a moved-from pointer: UB reached for every consistent input |
| C60 | S3 stream over an abstract object store | refinement |
| C61 | chunk reader and record reader with memory, failing streams | invariant; counterexamples for held chunks |
| C62 | COO constructor | exact characterisation |
| C63 | protobuf schema inference | decoder accepts what was inferred from |
| C64 | NumPy and DLPack exchange, strides and memory | index arithmetic; counterexamples for other item sizes and layouts |
| C65 | image decoding loop, OpenCV as a parameter | induction over the batch |
| C66 | the text line reader from the bytes of its data stores to its examples, over the models of all stages | composition: every stream that obeys the read contract is simulated by the abstract stream; each stage by its own theorem; invariant of the pipeline |
| C67 | the CSV reader from the bytes of its data stores to the columns of its examples, over the models of all stages | as C66; the state kept across files and epochs by a history variable, every reachable history gives the same rows |
| C68 | the RecordIO-protobuf reader from the bytes of its data stores to the tensors of its examples, over the models of all stages; `ParseFromArray` is a parameter | as C66; the record reader is followed over any stream that keeps to the contract of `read` |
| C69 | constructors and `open_read` of the data stores over the models of the streams; gzip streams over any inner stream | the blocks that the inner stream delivers are followed; invariant of the inflating stream for blocks that all stand for something |
| C70 | `Data_reader_base` and `num_bytes_read` on top of the pipeline | what the calls returned is tied to what the pipeline returned by an invariant; the batches counted are followed by a second one |
| C71 | `ensure_schema_inferred` and `read_schema` on top of C70, over any instance reader | peeking keeps the instances that follow (also as batches); invariant: without a schema the pipeline has not started or has nothing to read |
| C72 | the members of `parallel_data_reader` that each move of C71 uses, with lock and atomicity | a race is two enabled moves of different threads with conflicting uses; invariants of C71 exclude it for all members but `state_` |
| C73 | `start_thread` with failing system calls, and a reader whose thread may not exist | invariant of runs without failures; runs after a failure are stuck by induction |
| C74 | `open_read` of every store class, then the readers of C66, C67 and C68 over the streams it gives | every such stream is a `SourceOf` its contents (C69); the readers are proved for streams of any class |
| C75 | the readers of C74 with a store that cannot be opened or is damaged | the error of the core reader is followed through the instance readers, the batches and the pipeline, against every possible continuation (`Machine.Breaks`, `dataset_fails`); a stream that fails is compared with one that goes on (`Follows`), through the conversion of text (`Proofs/FollowsText`, `Proofs/Garbled`) |
| C76 | the pipeline with bodies that log, the interpreter lock, the bindings that give it away | refinement of the pipeline of C25; progress from its invariant; a hang invariant for `reset` |
| C77 | the exception classes, nesting, the translator of the Python module, `handle_errors`, messages about cells | induction over the chain of causes; case analysis of the `catch` clauses |
| C78 | `to_coo_matrix`, `to_tensor`, `to_tf` with the SciPy operations they use | the coordinate vectors as a list of entries; induction over runs of equal columns |
| C79 | the string buffer of `DeviceArray`, `as_numpy`, `flatten`, `to_pandas` | induction over strings, offsets and features |
| C80 | `Image_reader` and `Instance::bits` over data stores, with the record and instance readers and the pipeline of C66–C68 and C74 | loading by induction over rounds of reads; decoding by C65; epochs by the general theorem for datasets |
| C81 | `Model/Arrow.lean`: `Arrow_file` over the modelled streams, `arrow_boundary`, `as_arrow_file`. `Spec.Answers` is the relation between calls and answers of a file over bytes; proved by an invariant over the three stream classes. |
| C82 | `Model/FileTree.lean`: the traversal of `fts` over directory trees with a sorting routine that is only known to sort. `Spec.Listing` is the list, level by level; uniqueness by induction over trees, from the order of `strnatcmp` having no ties but for white space. |
| C83 | `Model/StoreId.lean`: `id`, `operator==` and `std::hash` of all data store classes, with the string shared by Python classes. `Spec.SameData` over the worlds of C69; injectivity of the format of identifiers. |
| C84 | `Model/PyStream.lean`: the trampolines `Py_input_stream`, `Py_data_store` and `Py_data_reader` over abstract Python objects. |
| C85 | `parserOf` of `Model/Number.lean` with its options; `Spec.BaseText` (integers in any base, independent of the parser), `Spec.StrippedOf`. |
| C86 | `Model/OsResources.lean`: the objects over a kernel that answers as it likes. Invariant: the tables of the kernel, by owner, are what the objects hold; kept by each call through every failure. |
| C87 | `Model/PyOptions.lean`: objects, constructors, attributes and readers over the conversions of pybind11. `Spec.signature`, `Spec.Passed` and `Spec.optionOf` say what the documentation says about calls and options; round trips of each conversion, then an invariant over all histories (a part belongs to an object). |
| C88 | `Model/SharedStore.lean`: the reads and writes of the shared members by `id` and `open_read`, one per step, with any number of threads. `Spec.StoreRace` is a data race of C++; invariants over all runs for careful programs and for the names and numbers; runs that end in a race otherwise. |
| C89 | `Model/Sessions.lean` adds the data stores that `list_files` makes and `infer_schema` of two readers; the rest is C82, C74, C70 and C71 put together: every state that calls and schedules lead to is traced back to where its epoch began, and what an epoch yields is known from C66 to C69. `Spec.BatchSession` says what the calls return. For CSV `Spec/CsvColumns.lean` says which names, types and columns a dataset of tables has; that the reader's schema and parsers are these is proved from C34 and the history of inference attempts (C71). |
| C90 | `Model/Warnings.lean` runs the loops of `CsvDecode` again and collects what is logged; `Spec.rowMessages` says what should be, from the fields of a row. Induction over fields and rows; for parallel decoding, permutations of the messages of the blocks. |
| C91 | `Model/Reports.lean` runs the checks of `Protobuf` and `Image` again and says which message each failure makes; `Spec.Truthful` and `Spec.ImageWrong` read the messages as English. A message exists exactly if the instance is bad (simulation of the two runs), and is true by cases over the checks; induction over the instances of a batch. |
| C92 | `Model/CoreErrors.lean`: the message of `handle_errors` in the state that `CoreReader` leaves; `Spec.FailsAt` says where a dataset fails, from the contents of the stores. Invariant over all reads and resets: the record index is the number of records that were read from the current store. |
| C93 | `Model/S3World.lean`: stream and client over a service (`Spec/S3Service.lean`) whose objects change between the calls and whose requests fail by schedule. Refinement: invariant that the version of the stream is found, by induction over the history. |
| C94 | `Model/Sdk.lean`: `make_s3_client` with its once flag, and the SDK flag with the log of native calls. Invariants over all histories; two threads as an interleaving of steps. |
| C95 | `Model/Poke.lean`: writes into the blocks of the memory model of C50; in-memory stores with the memory of the store. Refinement to separate arrays (`Spec/Poke.lean`); simulation between the run with and the run without writes. |
| C96 | `Model/PyExample.lean`: variables, examples that die with their last reference, iterators that do not refer to them. Simulation with lists of named features (`Spec/PyExample.lean`) for whole programs. |
| C97 | `Model/PySchema.lean`: schema with the memory of its vector; references to elements. Simulation with a fixed list (`Spec/PySchema.lean`). |
| C98 | `Model/Allocators.lean` on top of the blocks of C55: heap bytes of a block after any sequence of sizes, by induction; calls of `initialize`, `set_memory_allocator` and `allocate`. |
| C99 | `Model/Xxhash.lean` with the variants of the code as a parameter; `Spec/Xxhash.lean` after the published description; induction over stripes and the remaining bytes; then C53 for the sketch. |
| C100 | `Model/PyLogging.lean`: the library's level and handler, Python's levels, programs as lists of actions; `Spec.Records` as a relation; induction over the program. |
| C101 | `Model/Analyze.lean`: the loop of `analyze_dataset` on the reader, threads and lock of C76. Simulation by single reads for the invariants of the pipeline; the bodies that need the lock never go on; a lexicographic measure for termination. |
| C102 | `Model/ToDict.lean`: the entries of the dictionary, `%f` on rational numbers, the median by a selection that is a parameter with the contract of `std::nth_element`. There is one median and it does not depend on the order; digits by induction; rounding to the nearest by arithmetic. |
| C103 | the core reader and all readers around it; for CSV a core reader whose factory has a state (`Model/CsvLive.lean`), shown to have the outcomes of the simpler one. An invariant of each layer under which an error lasts, from the inside out; for the data reader an invariant of all executions that begin with an error. |
| C104 | floats as sign, exponent and fraction with the comparisons of IEEE; the checks of the constructors; the sampling reader for any float. The value of a float is a rational number. Equivalence with the readers of C17-C24 for all numbers between 0 and 1. |
| C105 | `Model/Alignment.lean`: the positions at which the decoders read integers, and the chunks that they are called with, over the memory model of C50. Invariant: the chunk to decode starts at a multiple of four, as every RecordIO record has a size that is one. |
| C106 | `Model/PyBuffer.lean`: the objects of a program that refer to the buffer, what each call adds and removes, and whether it holds the lock. Invariant: a reader that refers to nothing has nothing to decode. Calls that give the lock away lose the last reference only when they find no record. |
| C107 | `Model/Fifo.lean`: one FIFO, the service at its other end, signals and time as a list of events; the calls take what they need from its front. Invariant: what was returned and what is in the pipe is what was written, and the service has connected once the stream is open. |
| C108 | `Model/Estimate.lean`: the formula of the estimate over the registers, in real numbers (Mathlib). Bounds of the logarithm in each regime; every 32 bit number is the hash of a text of four bytes, so that all registers can be reached. |
| C109 | `Model/PyAlive.lean`: programs over variables; a data store has a C++ part and a Python part, which lives as long as Python refers to it. Simulation by `Spec.Env`, where values have no lifetimes; invariant: the references to the first Python part are those to data stores that have always been held. |
| C110 | `Model/PyLoop.lean`: iterators, generators and datasets over a reader with any examples and ending in each epoch. Invariant: epoch and position are functions of the history. |
| C111 | `Model/PyShare.lean`: counted tensors, contexts with deleters, capsules with their names, arrays of other libraries. Simulation of an environment of objects that refer to tensors; invariant: the count is the number of objects that refer to the tensor, each context has one owner. |
| C112 | `Model/Wire.lean`: the wire format and the messages of the .proto file, `parse_proto` with its conversion to `int`. The parser of fields is proved equal to a grammar, in both directions; messages by induction over their parts; the reader by C68. |
| C113 | `Model/Decimal.lean`: Abseil's `SimpleAtof`/`SimpleAtod` in place of the parameter of `Model/Number.lean`. The grammar is proved in both directions; rounding over the rational numbers, against a definition of the nearest number; uniqueness gives order and equality. |
| C114 | `Model/Glob.lean`: `fnmatch` in place of the parameter of `Model/Stores.lean`. `Spec.MatchesPat` says what patterns mean, part by part; the reading of the pattern and the matcher are proved equal to it by induction, then composed with C82 and C51. Names against paths by the last slash. |
| C115 | `Model/PyEqual.lean`: `__eq__` and `__hash__` of five classes, and how Python uses them for `==`, `!=` and `in`. By cases on the classes, and induction over lists; equality of attributes and schemas from C43, of data stores from C83. |
| C116 | `Model/LiveFile.lean`: reads of a stream and of a mapping, each with the file as it is then. By induction over the history of reads, with the position as invariant. |
| C117 | `Model/SizeHint.lean`: the calls of a program between reads, with the loop of `set_chunk_size_hint` on 64 bit numbers as an inductive relation (it may not end). By induction over the history, with the invariant of the chunk reader. |
| C118 | `parserOf` in `Model/Number.lean`: existence of digits by strong induction, then C38 and C113. |

## Deviations found

Each is proved for the model with a concrete witness or for all inputs of the kind named (theorems with the suffix
`_violated`; the reading of the code behind it is in the comment of the model definition).

| Property | What the code does instead |
|---|---|
| C04 | a dataset that ends inside a split record dereferences a null data store |
| C05, C07 | CRLF on a chunk edge gives an additional empty line (or a comment that is not recognised); byte order marks at the start of lines |
| C06 | a chunk without line terminator is read one byte past its end |
| C11 | a line with exactly `max_line_length` bytes is rejected |
| C14, C09 | a byte order mark is removed at the start of every row |
| C24 | `pad_warn` does not pad the last batch |
| C28 | an example that was decoded before is lost when a later batch fails |
| C31 | with padding, the first padding row can keep values of a bad row |
| C32 | a row with an open quote raises in every mode; `warn_bad_instances` turns skipping into an error |
| C33 | the first column with a name can lose it to a renamed duplicate |
| C34 | of several columns with one name an override by name reaches the first only |
| C35 | `has_single_header` with a first store without rows takes a header for data |
| C35 | names in the header are cut by `max_field_length`, whatever `max_field_length_handling` is, and without a warning (`csv_reader.cc` 135-150): different names may become equal |
| C36 | a second attempt to infer the schema can differ from the first (four ways) |
| C38 | overflow is reported for texts that are no integers |
| C39 | a zero dimension is a division by zero |
| C40 | in the pad modes one invalid key fails the whole batch; rows of sparse attributes drift; a bad last instance leaves its dense values in the padding |
| C41 | a label and a feature with one name are confused |
| C42 | sizes wrap around; negative strides, scalars and overflowing strides are accepted; the smallest stride is undefined; an empty tensor with a stride above one is rejected |
| C45 | seeks and reads of `2^63` bytes and more |
| C46 | detected UTF-16/32 text of at most four bytes is rejected if the stream cannot seek |
| C47 | a read returns zero bytes before the end (empty members, short reads of a header); wrong count for 4 GiB and more |
| C69 | records behind an empty member of a gzip file are lost without an error |
| C48 | constructing a stream between `close` and the destructor of another gives the channel away, a FIFO is reused |
| C48 | paths are compared byte by byte: a channel named by two paths (`p` and `./p`) can be opened by two streams at once, which open the same FIFO |
| C48 | `fifo_id` 2^64 - 1 (or 2^64 - 2, once opened) is stored as -1, the mark of a channel in use: the channel can never be opened again |
| C49 | loading an empty seekable store does not end |
| C51 | digits after a leading zero are compared as a fraction (`a09` before `a1`) |
| C53 | merging combines registers with "or"; `__builtin_clz(0)`; widths of 32 and more shift before they are checked |
| C54 | mean with an example without numbers, average and shortest length with empty cells, captured counts at the limit, `numeric_finite_count`, padding rows |
| C55 | shrinking a hybrid block that uses the file copies too much |
| C56 | 32 bit overflow when resizing, cut off sizes, RGB conversion with four channels writes nothing, error class |
| C57 | `p = p->next` uses freed memory |
| C58 | sizes are exported to Python as signed |
| C59 | the CSR constructor dereferences a pointer it has moved from |
| C61 | after a stream error released memory is read or a record is garbled |
| C64 | strides of NumPy arrays are divided by 8 whatever the item size; reversed and broadcast arrays are read out of bounds; stepped arrays are refused |
| C72 | `state_` is read without the lock by `read_example` and `reset` while the background thread writes it: a data race |
| C73 | a failed start of the background thread leaves all signals blocked; the next call hangs and `reset` or destruction terminates the process |
| C76 | `reset` (and destruction of a reader) from Python deadlocks if a background task logs a message: the lock of the interpreter is held while the thread is joined |
| C77 | messages about CSV cells are cut in the middle of UTF-8 characters; Python then raises `UnicodeDecodeError` instead of `InvalidInstanceError` |
| C77 | the `DataReaderError` for a data store that is missing or may not be read has no cause, so that the number of the system's error is lost (`core_instance_reader.cc` 216-224, `instance.cc` 44-52) |
| C78 | `to_coo_matrix` of a 1-D tensor ends the process: `Coo_tensor::indices` is `noexcept` and throws |
| C78 | `to_tf` fails if a value of a sparse feature is zero: `nonzero` leaves it out, `data` does not |
| C78 | indices above 32 bits wrap into small matrices; `to_tensor` ignores the stride of `mtx.data` |
| C79 | after a string that is not UTF-8 a second read of the same `DeviceArray` uses memory that was never written |
| C79 | a tensor with a negative stride is exported to NumPy with the pointer to its first element in memory, so that elements in front of it are read |
| C79 | `to_pandas` mixes instances and values if features have several values per instance, and fails if only some have |
| C80 | an empty image file that is not memory mapped, or an empty S3 object, makes the reader loop for ever (C49) |
| C75 | a gzip file that was cut in the header of its second or a later member is read as if it ended there, without an error: a read that gets a block that stands for nothing returns no bytes, which readers take for the end |
| C80 | a gzip file that was cut in its header is loaded as an empty image and taken for a bad one, without an error |
| C81 | `seek(-1)` on an Arrow file over a record or a store in memory succeeds; the next read returns what is in front of the payload in memory |
| C81 | `seek` to a negative position of an Arrow file over a file succeeds and goes to the end |
| C81 | `ReadAt` on an Arrow file over a file is one `read(2)`, so it is short where the operating system delivers less at once; Arrow takes that for the end |
| C82 | names that differ in white space only (`a 1`, `a1`) compare equal, so their order in the list of files is that of the file system |
| C83 | all data stores written in Python compare equal: `id` returns a reference to one static string |
| C83 | version `v` of object `k` equals the object `k@v`; a file taken as gzip equals the same file taken as plain bytes, and a pipe channel with that path |
| C84 | `PYBIND11_OVERLOAD_PURE(…, "seek", …)` looks up a method whose name has quotes in it, so streams written in Python never work: `seek`, `close`, `seekable`, `closed` end the process, `size` and `position` raise |
| C84 | `reset` and `num_bytes_read` of a reader and `id` of a data store written in Python end the process if they raise or are properties, as the library's own `num_bytes_read` and `id` are (bindings, `data_reader.cc` 90-110, `data_store.cc` 56-65) |
| C84 | `None` returned by `open_read` of a data store written in Python becomes a null pointer (by what is known of pybind11), which readers use without a test (`chunk_reader.cc` 36, `utf8_input_stream.cc` 301, `instance.cc` 58) |
| C84 | `Py_input_stream::read` releases the interpreter lock (variable `acq_gil` of type `gil_scoped_release`) and then calls the interpreter; `read(size)` is not implemented and says end of stream |
| C85 | `number_base` has no effect: `try_parse_int_core` ignores its options and always reads decimal numbers |
| C85 | a text in `nan_values` that is a number (`999`) is not read as NaN, because numbers are tried first; one that begins or ends with white space never matches, because fields are stripped first |
| C86 | `make_temporary_file` throws between `mkstemp` and `unlink` if `ftruncate` fails: the file stays in `/tmp` |
| C86 | `File_backed_memory_block::resize` cuts the file off before `mremap`; if that fails the block is larger than its file (on other systems the process is aborted) |
| C86 | `mkstemp` without `O_CLOEXEC`: programs started by the process inherit the temporary file |
| C87 | `warn_bad_instances` can only be given to the constructor: it is missing among the attributes (`data_reader.cc` 390-404); its default is false, documented as True |
| C87 | the attribute `encoding` has the type `Text_encoding`, which is not known to Python: assigning a name and reading a set encoding raise |
| C87 | the documented defaults `None` of `column_names`, `use_columns`, `use_columns_by_index`, `column_types`, `column_types_by_index` and `nan_values` are refused; `ImageReaderParams()` is refused because the default `None` is no sequence |
| C87 | `CsvParams` has `parser_options`, documented as `parser_params` |
| C87 | `None` among the data stores of a dataset is accepted (by what is known of pybind11, it becomes a null `Intrusive_ptr`); the first read dereferences it (`core_instance_reader.cc` 212) |
| C87 | a delimiter from U+0080 to U+00BF is accepted as the byte of its code point; rows in UTF-8 are split in the middle of the character |
| C88, C72 | `In_memory_store::id` and `S3_object::id` compute the name in a `mutable` member without a lock: first calls from two threads are a data race; decoders of a reader make such calls for bad rows (`csv_reader.cc` 657, 704, 740) |
| C88 | `Sagemaker_pipe::open_read` clears `fifo_id_` without a lock, and `fifo_ids_` is a process-wide map without one: two streams get the same number, or the map is corrupted |
| C88 | the string shared by data stores written in Python is read without the lock of the interpreter: a thread may get another data store's name |
| C88 | `open_read` asks for the name when messages of the level info are logged, with the same race (`in_memory_store.cc` 40-42, `s3_object.cc` 53-55) |
| C46 | `Utf8_input_stream` never calls `iconv` without input at the end (`iconv.cc` 70, `utf8_input_stream.cc` 125-178), so what a converter holds back then is lost; the C library of the sandbox (GNU 2.39) was seen to hold back some letters in CP1258, CP1255 and TCVN5712-1, and some characters in TSCII, EUC-JISX0213 and SHIFT_JISX0213 |
| C46 | text declared with `Text_encoding::ascii_latin1` (`8859_1`, `text_encoding.cc` 23) is passed on as it is (`utf8_input_stream.cc` 291): a character that is not ASCII is not returned in UTF-8; under other names, such as `ISO-8859-1`, the same text is converted |
| C92 | `list_files` reports the first path that cannot be looked up with `errno` instead of `fts_errno` (`file_list.cc` 99), which is that of the last such path: with two of them the code can be the other's |
| C82 | `list_files` with an empty list of paths passes an empty array to `fts_open`, and the first `fts_read` then fails (`file_list.cc` 71-84 and 96); a small C program with these calls crashed with the C library of the sandbox (GNU 2.39), what other libraries do was not tried |
| C82 | `File` rejects paths that end in a backslash, so one such file makes `list_files` fail as a whole (`path.cc` 24-33, `file_list.cc` 132) |
| C90 | of the bad rows of an example that is skipped only the first is told (`csv_reader.cc` 548-551); `warn_bad_instances` is without effect if the log level was off when the reader was made (`data_reader_base.cc` 49-51); messages that are not UTF-8, also because a value was cut at 64 bytes, are lost in Python (`logging.cc` 52, `logger.cc` 43) |
| C91, C56, C65 | the messages for sparse and dense features are exchanged (`recordio_protobuf_reader.cc` 652-661); the message about a failed resize formats a text as a number (`image_reader.cc` 316), so that `fmt::format_error` is thrown whatever bad-example handling is chosen |
| C92 | for a corrupt split record the message has the number of the record behind the offending one (`core_instance_reader.cc` 135-137 and 152-154 after 191) |
| C92, C77 | opening a data store that is an instance as a whole is outside of `handle_errors`: other errors than missing or forbidden (too many open files, S3 not reachable, unsupported compression) are raised as they are and do not name the data store (`instance.cc` 39-54) |
| C93 | an S3 object that is replaced while it is read is read as a mixture of the two (`s3_client.cc` 146-152: no entity tag) |
| C94 | a process can make only one S3 client with default credentials (`s3_client.cc` 40-54: null pointer in the second call); the flag of the SDK is not synchronized |
| C95 | records are exported as writable buffers over the memory of the store: a write changes the contents of an in-memory store (also of an immutable `bytes` object), and kills the process if the file is mapped (`record_reader.cc` 69-77); a peeked record is shared with the one that is read next |
| C96 | iterating over an example that has no other reference reads freed memory (`example.cc` 79-82, no `keep_alive`); `Example(None, [])` uses a null pointer; `None` is accepted as a feature |
| C97 | `schema.attributes` is the vector of the schema itself, and can be changed from Python: lookups are stale, `example[name]` can read out of range, attributes in variables dangle, and readers that share the schema fail (`schema.cc` 75, 95) |
| C98 | `Hybrid_memory_block::resize` tests the old size instead of the requested one, so that a block can grow on the heap beyond the threshold once, to any size (`file_backed_memory_allocator.cc` 80); `initialize()` replaces an allocator that was set before it |
| C99 | in the usual build a cell such as "crqaa" passes zero to `__builtin_clz`, which is undefined (`hyperloglog.h` 44-68, `column_statistics.h` 35) |
| C100 | `_map_log_level(OFF)` is `NOTSET`, which does not turn a Python logger off (`__init__.py` 142-144) |
| C101 | `analyze_dataset` has no `call_guard<gil_scoped_release>` and hangs as soon as the background thread needs the lock (`module.cc` 169-177) |
| C102 | `to_dict` raises `UnicodeDecodeError` if the first cell or a captured value of the column is not UTF-8 (`module.cc` 140-164) |
| C102 | `to_dict` shows extremes and averages with six decimals, so that numbers below 5e-7 are shown as zero (`std::to_string`, `module.cc` 92-97) |
| C103, C71 | with `sample_ratio`, a failed read leaves the instances read so far in the buffer: the next call returns them, all of them, and the error is lost (`sampled_instance_reader.cc` 52-63) |
| C103 | a CSV row behind a comment, a blank line or a byte order mark that is too long fails; if it starts with a byte order mark, the next call drops the mark and may return the row (`text_record_reader.cc` 38, `csv_record_reader.cc` 35-70) |
| C103 | a header row that is not well formed behind some names fails; the next call takes these names for all the columns, skips the header and returns the first row (`csv_reader.cc` 100-158) |
| C103 | with `num_instances_to_read = 0`, an error among the instances to skip is followed by the end of the data (`ranged_instance_reader.cc` 34-47) |
| C104 | NaN passes the test of the sample ratio (`sampled_instance_reader.cc` 30-32) and is converted to an integer (66-67), which is undefined |
| C104 | with `num_shards` 0 or 1 every `shard_index` is accepted (`instance_reader.cc` 42-44, `sharded_instance_reader.cc` 31-33) |
| C105 | RecordIO headers in memory that does not begin at a multiple of four are read through a misaligned pointer (`recordio_header.cc` 28-40) |
| C105 | `Parquet_record_reader` reads 32-bit integers at all addresses in turn (`parquet_record_reader.cc` 73-83, 94, 158) |
| C106 | `read_record` and `peek_record` give the interpreter lock away and then, at the end of the data, let go of the chunk; if nothing else refers to it, `PyBuffer_Release` is called without the lock (`record_reader.cc` 39-41, 87-88, `stream_record_reader.cc` 55, `py_memory_block.cc` 22) |
| C107 | `wait_for_data` calls `FD_SET` with any descriptor: with 1024 files open it writes behind the `fd_set` on the stack (`sagemaker_pipe_input_stream.cc` 205) |
| C107 | a signal ends the pause of a second between two attempts to open a FIFO (`sagemaker_pipe_input_stream.cc` 179-190): with two signals opening fails at once although the FIFO is about to be made |
| C107 | `SageMakerPipe(timeout=timedelta(milliseconds=500))` waits for no time at all: parts of a second are cut off (`mlio-py` `data_store.cc` 178-180) |
| C108 | in builds without `__builtin_clz`, 65536 cells of four bytes give an estimate of NaN, which is cast to `size_t` (`hyperloglog.cc` 95, `column_statistics.h` 46) |
| C108 | the estimate can go down by more than three quarters when one cell is added (`hyperloglog.cc` 83-93: no empty-bucket count above 2.5 m) |
| C109 | parameters and readers keep only the C++ part of a data store written in Python: `DataReaderParams(dataset=[MyStore()])` makes a reader that fails with "Tried to call pure virtual function" (`data_reader.cc` (bindings) 131, 315-317: no `keep_alive`; `data_store.cc` (bindings) 41-45) |
| C110 | `make_tf_dataset` never resets the reader: every iteration over the dataset but the first is empty, and one that follows a broken off iteration starts in the middle (`tensorflow.py` 36-37) |
| C111 | the deleter of an exported tensor destructs it in whatever thread the other library calls it; for a tensor over a Python buffer that releases the buffer without the interpreter lock (`dlpack.cc` 163-167, `py_buffer.cc` 103-106) |
| C111 | the destructor of a capsule that was taken calls `PyErr_Clear` without saving the current exception: one that is on its way is lost (`integ.cc` 42) |
| C112 | the size of an instance is converted to `int` (`recordio_protobuf_reader.cc` 417-418): 4 GiB behind a message are ignored, and for sizes between 2 and 4 GiB memory outside the instance is read |
| C114 | the pattern is documented as one for names of files (`file.h` 68) but is compared with the whole path or URI (`file_list.cc` 117, `s3_object.cc` 99): `a.csv` and `part-??.csv` select nothing below a directory, and `*a*b` selects `d/a/b` |
| C115 | `__eq__` of `DeviceKind`, `Device`, `Attribute`, `Schema` and `DataStore` is bound without `py::is_operator` (`py_device_array.cc` 149 and 169, `schema.cc` 54 and 86, `data_store.cc` 110): by what is known of pybind11 (unchecked), `schema == None` raises `TypeError` instead of being false |
| C116 | a file that is mapped into memory (the default) keeps the size it had when it was opened (`file_mapped_memory_block.cc` 63-68): if it is cut before it is read, reads return zeros that were never in the file or the program ends with `SIGBUS`, and a file whose `st_size` is 0, such as those in `/proc`, is read as empty although it is not; without mapping, loading such a file whole (`instance.cc` 88-99), as the image reader does, does not end |
| C117 | `set_record_size_hint` never returns for a size above `2^63` (`default_chunk_reader.cc` 99-101: the highest bit is shifted out, and zero stays zero); for contents in memory the size reported is always 0 (`in_memory_chunk_reader.h` 41-44) |
| C118 | the parser of `float16` columns refuses every text (`parser.cc` 44-50), although the type can be given: every row is bad |

Seen while reading, not modelled: `isspace` is called with negative characters.

## Trusted base

* The kernel of Lean 4.33.0.
* Axioms: every theorem in `MANIFEST.json` depends on no axioms other than `propext`, `Classical.choice` and `Quot.sound`
  (`#print axioms` for each of them).  There is no `sorry`, no `native_decide`, no `bv_decide`, and no axiom in the project.
* The statements in `Verif/Props` and the definitions in `Verif/Spec`.
* That `Verif/Model` says what the C++ (and Python) sources do.  Each definition cites the lines it models and names its
  simplifications; nothing was compiled or run against the sources.
* That memory allocation does not fail (`std::bad_alloc`, and `std::length_error` of `reserve` for a huge `batch_size`), except where a
  model says otherwise, and that pybind11, Python, the standard library, the C library, Abseil, TBB, zlib, ICU, OpenCV, protobuf
  and the AWS SDK behave as the comments of the models state.  Their sources are not in `/repo`: these parts are written from
  general knowledge, and no result of a model was compared with the library.  The exceptions are `fnmatch` (C114), compared with the C
  library of the sandbox on random cases, `fts_read` without paths and with paths that cannot be looked up (C82, C92), tried with it, `select`, `read` and `nanosleep` on FIFOs with and without a writer and with signals (C107) and pages of mapped files that are cut (C116), tried with Linux, and the comparison protocol of Python (C115), tried with Python 3.11; a comparison is a test and proves nothing.

What is modelled, by file of `/repo`:

| Source | Model | Not modelled |
|---|---|---|
| `record_readers/detail/{chunk_reader,default_chunk_reader,in_memory_chunk_reader}`, `stream_record_reader` | `StreamReader`, and with memory `ChunkHeap` | failing allocations |
| `record_readers/detail/{recordio_header,util}`, `recordio_record_reader` | `RecordIO` | |
| `record_readers/{text_record_reader,text_line_record_reader,csv_record_reader}`, `detail/text_line` | `Text` | |
| `record_readers/parquet_record_reader` | `Parquet` | decoding of Parquet files (not in ml-io) |
| `csv_record_tokenizer` | `Tokenizer` | |
| `csv_reader` | `CsvSchema`, `CsvDecode` | log messages |
| `parser`, `util/number`, `data_type`, `util/string` | `Number` | floating point parsing (parameter) |
| `instance_readers/*`, `instance_batch_reader` | `InstanceReaders`, `CoreReader` | random engine (parameter) |
| `data_reader_base`, `num_bytes_read` and `instance_batch::size_bytes` | `DataReader` | wrap of the counter at 2^64 |
| schema inference of `parallel_data_reader` | `SchemaReader` | `infer_schema` of the derived class is a parameter (modelled for CSV and RecordIO-protobuf in `CsvSchema` and `Protobuf`) |
| uses of members by threads | `Races` | members of TBB objects; what `make_record_reader` uses counts as the instance reader (the CSV reader sets `column_names_` there only before it has seen an instance) |
| `detail/thread.h`, failures of `ensure_pipeline_running` | `ThreadStart` | - |
| `Model/SizeHint.lean` | `stream_record_reader.cc` 30-38, `default_chunk_reader.cc` 97-102, `default_chunk_reader.h` 45-50, `in_memory_chunk_reader.h` 41-47; without a lack of memory |
| `Model/LiveFile.lean` | `file.cc` 43-60, `file_input_stream.cc` 36-66, `file_mapped_memory_block.cc` 51-75, `memory_input_stream.cc` 27-42 and 89-92, `instance.cc` 37-125; pages of a mapping as on Linux, tried in the sandbox; without compression, errors of the system, seeking, and files that are overwritten |
| `Model/ListErrors.lean` | `file_list.cc` 71-84 and 96-102, with messages and codes, for paths that cannot be looked up; other changes of `errno` are left out |
| `Model/PyEqual.lean` | `py_device_array.cc` 143-179, `schema.cc` 54-61 and 86-93, `data_store.cc` 110-117, `device.h` 56-101 and 122-141; the dispatch of pybind11 from general knowledge, unchecked, the comparison protocol of Python tried with Python 3.11; without `AttributeList` and subclasses that overwrite `__eq__` |
| `Model/Glob.lean` | `file_list.cc` 93 and 115-124, `s3_object.cc` 97-106; `fnmatch` of the C library with no flags, from general knowledge and compared with glibc on random cases; without character classes, equivalence classes, collating symbols and locales |
| `Model/CsvNumbers.lean` | `csv_reader.cc` 687-694 with the parsers of `Model/Decimal.lean` |
| `Model/Decimal.lean` | `number.cc` 37-45 and 54-79; `SimpleAtof` and `SimpleAtod` of Abseil 20210324.2 as they are generally known (syntax, and rounding to the nearest value); Abseil is not in the sandbox, so this is an unchecked assumption. Without the limit of fifty million digits |
| `Model/Wire.lean` | `recordio_protobuf_reader.cc` 415-421, `recordio_protobuf.proto` 8-126; the parser of the protobuf library as its published format, without the limit on nested groups |
| `Model/PyShare.lean` | `dlpack.cc` 126-190, `integ.cc` 28-45, `tensor.cc` (bindings) 63-84, 140-146, `py_device_array.h`, `py_buffer.cc` 31-110; threads only as the lock of a drop |
| `Model/PyLoop.lean` | `data_reader.cc` (bindings) 30-56, 589-617, `tensorflow.py` 35-45; Python generators and `Dataset.from_generator` without prefetching and conversion |
| `Model/PyAlive.lean` | `data_store.cc` (bindings) 31-45, 103-109, `data_reader.cc` (bindings) 112-131, 313-318; the table of registered instances of pybind11; lists are not changed after they are made; reference cycles and garbage collection are not modelled |
| `Model/Estimate.lean` | `hyperloglog.cc` 35-57, 75-98, `column_statistics.h` 44-47, 62-65; real numbers in place of `double` |
| `Model/Fifo.lean` | `sagemaker_pipe_input_stream.cc` 62-108, 136-232, 246-256, `system_call.h` 26-35; FIFOs as in fifo(7), pipe(7), `select` as on Linux; one connection of the service per FIFO |
| `Model/PyBuffer.lean` | `py_memory_block.cc` 20-23, `mlio-py` `record_reader.cc` 28-97, `stream.cc` 135-181, `data_store.cc` 67-70 and 106-109, `chunk_reader.cc` 30-47, `stream_record_reader.cc` 45-62, `record_reader_base.cc` 23-37, `memory_input_stream.cc` 44-73: references to one buffer; calls one after the other |
| `Model/Alignment.lean` | `recordio_header.cc` 26-45, `parquet_record_reader.cc` 27-136, `stream_record_reader.cc` 45-62: the addresses of 32-bit reads; the addresses of blocks are a parameter |
| `Model/ReaderOptions.lean` | `sampled_instance_reader.cc` 27-73, `sharded_instance_reader.cc` 28-34, `instance_reader.cc` 31-55, `instance_batch_reader.cc` 31-37, `parallel_data_reader.cc` 64-72: the checks of the constructors |
| `Model/ToDict.lean` | `contrib/insights/module.cc` 140-164, `column_statistics.h` 44-60 |
| `Model/Analyze.lean` | `contrib/insights/module.cc` 41-86, 169-177 |
| `Model/PyLogging.lean` | `mlio/__init__.py` 139-181, `core/logging.cc`, `logger.cc`; Python's `logging` as documented |
| `Model/Xxhash.lean` | `contrib/insights/hll/xxhash.c` 200-591 (`XXH32` of a whole text), `hyperloglog.cc` 59-73; not the streaming interface, XXH64 and XXH3, which nothing uses |
| `Model/Allocators.lean` | `memory/file_backed_memory_allocator.cc` 99-133, `memory/memory_allocator.cc`, `init.cc`; `get_total_ram` is a parameter |
| `Model/PyExample.lean`, `Model/PySchema.lean` | `mlio-py/mlio/core/example.cc`, `schema.cc`, `module.h` 27-29; of pybind11: conversion of `None` and integers, `make_iterator`, `bind_vector` |
| `Model/Poke.lean` | `mlio-py/mlio/core/record_reader.cc` 69-77, `memory.cc` 26-35, `in_memory_chunk_reader.cc` with the memory of the store, `file_mapped_memory_block.cc` 51-76 (page protection only) |
| `Model/S3World.lean` | `s3_client.cc` 60-95, 138-183, `s3_input_stream.cc`: with changing objects and failing requests; the service is described in `Spec/S3Service.lean` |
| `Model/Sdk.lean` | `init_aws.cc`, `s3_client.cc` 36-55, 185-211 |
| `Model/CoreErrors.lean` | `core_instance_reader.cc` 70-102: the messages |
| `Model/OpenErrors.lean` | `core_instance_reader.cc` 212-228, `instance.cc` 39-54, `s3_client.cc` 60-85: the exceptions, with the numbers of Linux |
| `Model/Reports.lean` | the messages of `recordio_protobuf_reader.cc` 299-368 and 479-850, `image_reader.cc` 99-131 and 197-375 |
| `Model/Warnings.lean` | the messages of `csv_reader.cc` 416-470, 529-616 and 626-755, `data_reader_base.cc` 46-52, `logger.h` 37-50, `logging.cc` 48-53 |
| `Model/CsvColumns.lean` | `csv_reader.cc` 472-527 (which columns are parsed, by which type), 171-186 with the names that opening has found |
| `Model/CsvLive.lean` | `csv_reader.cc` 100-158 with `core_instance_reader.cc` 46-235: data stores are opened when needed, and again after an error |
| `Model/Sessions.lean` | `file_list.cc` 89-144 (data stores), `text_line_reader.cc` 50-56, `recordio_protobuf_reader.cc` 125-164, `instance_batch.cc` 21-30 |
| `Model/SharedStore.lean` | `in_memory_store.cc` 36-60, `s3_object.cc` 47-77, `sagemaker_pipe.cc` 45-60, `sagemaker_pipe_input_stream.cc` 110-135, `data_store.cc` 50-70 |
| `Model/PyOptions.lean` | `src/mlio-py/mlio/core/data_reader.cc` 112-250, 314-587, 626-675 |
| `Model/OsResources.lean` | `file_descriptor.h`, `file_input_stream.cc`, `file_mapped_memory_block.cc`, `file_backed_memory_block.cc` |
| `Model/StoreId.lean` | `data_store.h`, `id` in `file.h`, `in_memory_store.cc`, `s3_object.cc`, `sagemaker_pipe.h`, `core/data_store.cc` |
| `Model/PyStream.lean` | `core/stream.cc`, `core/data_store.cc`, `core/data_reader.cc` 58-110 |
| `Model/FileTree.lean` | `data_stores/file_list.cc`, with the traversal of `fts` |
| `Model/Arrow.lean` | `integ/arrow/arrow_file.cc`, `arrow_util.h`, `arrow_buffer.cc`, `module.cc` |
| `image_reader.cc`, `instance.cc` over data stores | `ImageReader` | OpenCV, logging |
| `mlio-py/mlio/integ/scipy.py`, `tensorflow.py` (`to_tf`), `make_coo_tensor` | `Sparse` | `make_tf_dataset`; data types of indices other than 32 and 64 bits |
| `mlio-py/mlio/core/py_device_array.cc` (strings), `integ/pandas.py`, `integ/numpy.py` (`as_numpy`) | `Pandas` | memory of the objects |
| `mlio-py/mlio/core/logging.cc`, call guards of `mlio-py/mlio/core/data_reader.cc`, `logger.{h,cc}` | `Gil` | text of the messages; Python readers and stores |
| `mlio-py/mlio/core/error.cc`, `handle_errors` of `core_instance_reader.cc` and `instance.cc`, messages on cells of `csv_reader.cc` | `PyError` | other messages |
| `parallel_data_reader` | `Pipeline` | races on variables accessed without lock |
| `coo_tensor_builder`, `recordio_protobuf_reader` | `Protobuf`, `ProtoReader`, `Wire` | the protobuf library, whose wire format is modelled |
| `tensor`, `schema`, `example` | `Tensor`, `Schema` | |
| `image_reader` | `Image` | OpenCV decoding and resizing (parameters) |
| `memory/*`, `instance` | `Slice`, `Memory` | failing system calls |
| `streams/{memory,file}_input_stream` | `Memory` | |
| `streams/utf8_input_stream`, `detail/iconv`, `text_encoding` | `Utf8Stream`, `TextSource` | iconv (parameter with laws; UTF-16/32 given) |
| `streams/gzip_inflate_stream`, `detail/zlib` | `Gzip` | deflate (parameter with laws) |
| `streams/sagemaker_pipe_input_stream` | `Sagemaker`, `Fifo` | |
| `streams/s3_input_stream`, `s3_client`, `data_stores/*`, `natsort` | `Stores`, `DataStore`, `StoreReaders` | the S3 service, `fts`, `fnmatch`, credentials |
| `intrusive_ptr`, `intrusive_ref_counter` | `RefCount` | weaker memory orders than acquire/release |
| `integ/dlpack`, `mlio-py` buffers and `integ/numpy.py` | `Exchange` | the rest of the Python bindings |
| `contrib/insights` | `Hll`, `Insights`, `Xxhash`, `Estimate`, `Analyze`, `ToDict` | rounding of floating point numbers |

Assumed of other software (each is a hypothesis or a comment in the model file): the TBB flow graph delivers messages as
documented (`Pipeline`), `std` containers, `std::sort` and mutexes work, `absl::SimpleAtoi` works as modelled (`Number`),
`absl::SimpleAtof` and `absl::SimpleAtod` accept the texts of `Model/Decimal` and round to the nearest value,
`zlib` and `iconv` satisfy the laws in `Spec/Gzip` and `Spec/Utf8Stream`, OpenCV satisfies `Spec.CvOk`, `fts` visits every
file once, `fnmatch` works as in `Model/Glob`, a stored S3 object does not change while it is read, pybind11 asks for
buffers with strides, and sizes are 64 bit.

## Testing the theorems

`seeded/LOG.jsonl` lists edits of the model that a realistic bug would make, one per line, with the theorems that no longer
build.  Theorems that survived an edit which makes their claim false were tightened, as the log says.
