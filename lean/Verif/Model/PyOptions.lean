import Verif.Basic

/-!
# Options in Python: `src/mlio-py/mlio/core/data_reader.cc` 112-250, 314-587 and 626-675

The classes `DataReaderParams`, `CsvParams`, `ImageReaderParams` and `ParserParams` with their constructors and attributes,
and the constructors of the readers, over the conversions of pybind11 (a library, described as it is documented: numbers have to
be in range, `std::optional` takes `None`, `std::vector` a list, `std::unordered_set` a set, `std::unordered_map` a dict, an
enumeration its members, `char` a string of one character).  Simplified: sets and dicts keep the order in which they were written,
other sequences than lists and subclasses are left out.
-/

namespace Mlio

/-- The names of all arguments and attributes, and one more that is in the documentation only. -/
inductive OptName where
  | dataset | batch_size | num_prefetched_examples | num_parallel_reads | last_example_handling | bad_example_handling
  | warn_bad_instances | num_instances_to_skip | num_instances_to_read | shard_index | num_shards | sample_ratio
  | shuffle_instances | shuffle_window | shuffle_seed | reshuffle_each_epoch
  | column_names | name_prefix | use_columns | use_columns_by_index | default_data_type | column_types
  | column_types_by_index | header_row_index | has_single_header | dedupe_column_names | delimiter | quote_char
  | comment_char | allow_quoted_new_lines | skip_blank_lines | encoding | max_field_length | max_field_length_handling
  | max_line_length | parser_options
  | image_frame | resize | image_dimensions | to_rgb
  | nan_values | number_base
  | parser_params
  deriving DecidableEq, Repr

/-- The enumerations, `data_reader.cc` 255-305 and `tensor.cc` 90-103. -/
inductive EnumClass where
  | lastExample | badExample | maxField | imageFrame | dataType
  deriving DecidableEq, Repr

/-- Values in Python.  A number of floating point, one that a `float` can hold, is represented by the bits of that (others are left out), a member of an enumeration by its number, a data
store and an object of the classes of this file by a reference. -/
inductive PyVal where
  | none
  | bool (b : Bool)
  | int (i : Int)
  | float (x : Nat)
  | str (s : Bytes)
  | list (l : List PyVal)
  | set (l : List PyVal)
  | dict (l : List (PyVal × PyVal))
  | enum (c : EnumClass) (n : Nat)
  | store (n : Nat)
  | obj (i : Nat)

/-! ## Conversions of pybind11 -/

/-- `std::size_t`; what is not a whole number, but can be converted to one (a member of an enumeration), is. -/
def asPySize : PyVal → Option Nat
  | .int i => if 0 ≤ i ∧ i < 2 ^ 64 then some i.toNat else none
  | .bool b => some b.toNat
  | .enum _ n => if n < 2 ^ 64 then some n else none
  | _ => none

/-- `int`, the same. -/
def asInt : PyVal → Option Int
  | .int i => if -2 ^ 31 ≤ i ∧ i < 2 ^ 31 then some i else none
  | .bool b => some b.toNat
  | .enum _ n => if n < 2 ^ 31 then some n else none
  | _ => none

/-- `bool`: also other values that have a truth value. -/
def asBool : PyVal → Option Bool
  | .bool b => some b
  | .none => some false
  | .int i => some (i != 0)
  | .float x => some (x % 2 ^ 31 != 0)
  | _ => none

/-- `float`; that integers, truth values and members of enumerations are converted to it is left out. -/
def asFloat : PyVal → Option Nat
  | .float x => some x
  | _ => none

/-- `std::string`. -/
def asStr : PyVal → Option Bytes
  | .str s => some s
  | _ => none

/-- `char`: one character, of ASCII or (two bytes in UTF-8) of Latin-1.  Strings in Python are UTF-8, so other bytes do not occur. -/
def asChar : PyVal → Option UInt8
  | .str [c] => if c < 128 then some c else none
  | .str [a, b] => if (a = 0xC2 ∨ a = 0xC3) ∧ b / 64 = 2 then some ((a &&& 3) * 64 + (b &&& 0x3F)) else none
  | _ => none

def asEnum (c : EnumClass) : PyVal → Option Nat
  | .enum c' n => if c' = c then some n else none
  | _ => none

/-- `Intrusive_ptr<Data_store>`; `None` is taken as a null pointer. -/
def asStore : PyVal → Option (Option Nat)
  | .none => some none
  | .store n => some (some n)
  | _ => none

/-- `std::optional`. -/
def asOpt {α : Type} (f : PyVal → Option α) : PyVal → Option (Option α)
  | .none => some none
  | v => (f v).map some

/-- `std::vector`. -/
def asVec {α : Type} (f : PyVal → Option α) : PyVal → Option (List α)
  | .list l => l.mapM f
  | _ => none

/-- `std::unordered_set`. -/
def asSet {α : Type} (f : PyVal → Option α) : PyVal → Option (List α)
  | .set l => l.mapM f
  | _ => none

/-- `std::unordered_map`. -/
def asMap {α β : Type} (f : PyVal → Option α) (g : PyVal → Option β) : PyVal → Option (List (α × β))
  | .dict l => l.mapM fun e => do
    let k ← f e.1
    let v ← g e.2
    some (k, v)
  | _ => none

/-- `std::optional<Text_encoding>`: the class is not known to Python, so nothing but `None` is taken. -/
def asEncoding : PyVal → Option (Option Bytes)
  | .none => some none
  | _ => none

/-! ## The structures -/

/-- `Data_reader_params`, `data_reader.h` 81-136. -/
structure DataParams where
  dataset : List (Option Nat) := []
  batchSize : Nat := 0
  numPrefetched : Nat := 0
  numParallel : Nat := 0
  lastExample : Nat := 0
  badExample : Nat := 0
  warnBad : Bool := false
  skip : Nat := 0
  read : Option Nat := none
  shardIndex : Nat := 0
  numShards : Nat := 0
  sampleRatio : Option Nat := none
  shuffle : Bool := false
  window : Nat := 0
  seed : Option Nat := none
  reshuffle : Bool := true
  deriving DecidableEq, Repr

/-- `Parser_options`, `parser.h` 33-40. -/
structure ParserP where
  nanValues : List Bytes := []
  base : Int := 10
  deriving DecidableEq, Repr

/-- `Csv_params`, `csv_reader.h` 48-118. -/
structure CsvP where
  headerRow : Option Nat := some 0
  singleHeader : Bool := false
  dedupe : Bool := true
  columnNames : List Bytes := []
  namePrefix : Bytes := []
  useColumns : List Bytes := []
  useIndices : List Nat := []
  defaultType : Option Nat := none
  types : List (Bytes × Nat) := []
  typesByIndex : List (Nat × Nat) := []
  delimiter : UInt8 := 44
  quote : UInt8 := 34
  comment : Option UInt8 := none
  quotedNewLines : Bool := false
  skipBlank : Bool := true
  encoding : Option Bytes := none
  maxField : Option Nat := none
  maxFieldHandling : Nat := 0
  maxLine : Option Nat := none
  parser : ParserP := {}
  deriving DecidableEq, Repr

/-- `Image_reader_params`, `image_reader.h` 43-54. -/
structure ImageP where
  frame : Nat := 0
  resize : Option Nat := none
  dims : List Nat := []
  toRgb : Bool := false
  deriving DecidableEq, Repr

/-! ## Objects -/

/-- What a reader was given (`make_csv_reader`, `make_image_reader`, `make_recordio_protobuf_reader`, `make_text_line_reader`,
`data_reader.cc` 225-249: by value). -/
inductive Given where
  | csv (d : DataParams) (p : CsvP)
  | image (d : DataParams) (p : ImageP)
  | proto (d : DataParams)
  | text (d : DataParams)
  deriving DecidableEq, Repr

/-- Objects.  `parserIn` is what reading the attribute `parser_options` of a `CsvParams` gives: a reference to the inside of it
(`return_value_policy::reference_internal`). -/
inductive PyObj where
  | data (p : DataParams)
  | csv (p : CsvP)
  | image (p : ImageP)
  | parser (p : ParserP)
  | parserIn (owner : Nat)
  | reader (g : Given)
  deriving DecidableEq, Repr

/-- All objects, in the order in which they were made. -/
abbrev PyHeap := List PyObj

/-- `Parser_options &` from a Python object. -/
def PyHeap.parserAt (h : PyHeap) (i : Nat) : Option ParserP :=
  match h[i]? with
  | some (.parser p) => some p
  | some (.parserIn c) =>
    match h[c]? with
    | some (.csv p) => some p.parser
    | _ => none
  | _ => none

def PyHeap.asParser (h : PyHeap) : PyVal → Option ParserP
  | .obj i => h.parserAt i
  | _ => none

/-! ## Constructors -/

/-- How Python and pybind11 match the arguments of a call with the parameters: those by position first, then those by name,
then the default values. -/
def bindArgs : List (OptName × Option PyVal) → List PyVal → List (OptName × PyVal) → Option (List PyVal)
  | [], [], _ => some []
  | [], _ :: _, _ => none
  | (n, _) :: ps, v :: pos, kw => if (kw.lookup n).isSome then none else (bindArgs ps pos kw).map (v :: ·)
  | (n, d) :: ps, [], kw =>
    match kw.lookup n with
    | some v => (bindArgs ps [] kw).map (v :: ·)
    | none =>
      match d with
      | some v => (bindArgs ps [] kw).map (v :: ·)
      | none => none

/-- The same, with the check for unknown names. -/
def bindCall (ps : List (OptName × Option PyVal)) (pos : List PyVal) (kw : List (OptName × PyVal)) : Option (List PyVal) :=
  if kw.all fun e => ps.any fun p => p.1 == e.1 then bindArgs ps pos kw else none

/-- The parameters of `DataReaderParams`, `data_reader.cc` 317-332. -/
def dataArgs : List (OptName × Option PyVal) :=
  [(.dataset, none), (.batch_size, none), (.num_prefetched_examples, some (.int 0)), (.num_parallel_reads, some (.int 0)),
   (.last_example_handling, some (.enum .lastExample 0)), (.bad_example_handling, some (.enum .badExample 0)),
   (.warn_bad_instances, some (.bool false)), (.num_instances_to_skip, some (.int 0)),
   (.num_instances_to_read, some .none), (.shard_index, some (.int 0)), (.num_shards, some (.int 0)),
   (.sample_ratio, some .none), (.shuffle_instances, some (.bool false)), (.shuffle_window, some (.int 0)),
   (.shuffle_seed, some .none), (.reshuffle_each_epoch, some (.bool true))]

/-- `make_data_reader_params`, `data_reader.cc` 112-149. -/
def makeData : List PyVal → Option DataParams
  | [dataset, batch_size, num_prefetched_examples, num_parallel_reads, last_example_handling, bad_example_handling,
     warn_bad_instances, num_instances_to_skip, num_instances_to_read, shard_index, num_shards, sample_ratio,
     shuffle_instances, shuffle_window, shuffle_seed, reshuffle_each_epoch] => do
    let dataset ← asVec asStore dataset
    let batch_size ← asPySize batch_size
    let num_prefetched_examples ← asPySize num_prefetched_examples
    let num_parallel_reads ← asPySize num_parallel_reads
    let last_example_handling ← asEnum .lastExample last_example_handling
    let bad_example_handling ← asEnum .badExample bad_example_handling
    let warn_bad_instances ← asBool warn_bad_instances
    let num_instances_to_skip ← asPySize num_instances_to_skip
    let num_instances_to_read ← asOpt asPySize num_instances_to_read
    let shard_index ← asPySize shard_index
    let num_shards ← asPySize num_shards
    let sample_ratio ← asOpt asFloat sample_ratio
    let shuffle_instances ← asBool shuffle_instances
    let shuffle_window ← asPySize shuffle_window
    let shuffle_seed ← asOpt asPySize shuffle_seed
    let reshuffle_each_epoch ← asBool reshuffle_each_epoch
    some { dataset := dataset
           batchSize := batch_size
           numPrefetched := num_prefetched_examples
           numParallel := num_parallel_reads
           lastExample := last_example_handling
           badExample := bad_example_handling
           warnBad := warn_bad_instances
           skip := num_instances_to_skip
           read := num_instances_to_read
           shardIndex := shard_index
           numShards := num_shards
           sampleRatio := sample_ratio
           shuffle := shuffle_instances
           window := shuffle_window
           seed := shuffle_seed
           reshuffle := reshuffle_each_epoch }
  | _ => none

/-- The parameters of `CsvParams`, `data_reader.cc` 409-428. -/
def csvArgs : List (OptName × Option PyVal) :=
  [(.column_names, some (.list [])), (.name_prefix, some (.str [])), (.use_columns, some (.set [])),
   (.use_columns_by_index, some (.set [])), (.default_data_type, some .none), (.column_types, some (.dict [])),
   (.column_types_by_index, some (.dict [])), (.header_row_index, some (.int 0)), (.has_single_header, some (.bool false)),
   (.dedupe_column_names, some (.bool true)), (.delimiter, some (.str [44])), (.quote_char, some (.str [34])),
   (.comment_char, some .none), (.allow_quoted_new_lines, some (.bool false)), (.skip_blank_lines, some (.bool true)),
   (.encoding, some .none), (.max_field_length, some .none), (.max_field_length_handling, some (.enum .maxField 0)),
   (.max_line_length, some .none), (.parser_options, some .none)]

/-- `make_csv_reader_params`, `data_reader.cc` 151-200. -/
def makeCsv (h : PyHeap) : List PyVal → Option CsvP
  | [column_names, name_prefix, use_columns, use_columns_by_index, default_data_type, column_types, column_types_by_index,
     header_row_index, has_single_header, dedupe_column_names, delimiter, quote_char, comment_char, allow_quoted_new_lines,
     skip_blank_lines, encoding, max_field_length, max_field_length_handling, max_line_length, parser_options] => do
    let column_names ← asVec asStr column_names
    let name_prefix ← asStr name_prefix
    let use_columns ← asSet asStr use_columns
    let use_columns_by_index ← asSet asPySize use_columns_by_index
    let default_data_type ← asOpt (asEnum .dataType) default_data_type
    let column_types ← asMap asStr (asEnum .dataType) column_types
    let column_types_by_index ← asMap asPySize (asEnum .dataType) column_types_by_index
    let header_row_index ← asOpt asPySize header_row_index
    let has_single_header ← asBool has_single_header
    let dedupe_column_names ← asBool dedupe_column_names
    let delimiter ← asChar delimiter
    let quote_char ← asChar quote_char
    let comment_char ← asOpt asChar comment_char
    let allow_quoted_new_lines ← asBool allow_quoted_new_lines
    let skip_blank_lines ← asBool skip_blank_lines
    let encoding ← asOpt asStr encoding
    let max_field_length ← asOpt asPySize max_field_length
    let max_field_length_handling ← asEnum .maxField max_field_length_handling
    let max_line_length ← asOpt asPySize max_line_length
    let parser_options ← asOpt h.asParser parser_options
    some { columnNames := column_names
           namePrefix := name_prefix
           useColumns := use_columns
           useIndices := use_columns_by_index
           defaultType := default_data_type
           types := column_types
           typesByIndex := column_types_by_index
           headerRow := header_row_index
           singleHeader := has_single_header
           dedupe := dedupe_column_names
           delimiter := delimiter
           quote := quote_char
           comment := comment_char
           quotedNewLines := allow_quoted_new_lines
           skipBlank := skip_blank_lines
           encoding := encoding
           maxField := max_field_length
           maxFieldHandling := max_field_length_handling
           maxLine := max_line_length
           parser := parser_options.getD {} }
  | _ => none

/-- The parameters of `ImageReaderParams`, `data_reader.cc` 544-547. -/
def imageArgs : List (OptName × Option PyVal) :=
  [(.image_frame, some (.enum .imageFrame 0)), (.resize, some .none), (.image_dimensions, some .none), (.to_rgb, some (.bool false))]

/-- `make_image_reader_params`, `data_reader.cc` 202-213. -/
def makeImage : List PyVal → Option ImageP
  | [image_frame, resize, image_dimensions, to_rgb] => do
    let image_frame ← asEnum .imageFrame image_frame
    let resize ← asOpt asPySize resize
    let image_dimensions ← asVec asPySize image_dimensions
    let to_rgb ← asBool to_rgb
    some { frame := image_frame, resize := resize, dims := image_dimensions, toRgb := to_rgb }
  | _ => none

/-- The parameters of `ParserParams`, `data_reader.cc` 570-571. -/
def parserArgs : List (OptName × Option PyVal) := [(.nan_values, some (.set [])), (.number_base, some (.int 10))]

/-- `make_parser_options`, `data_reader.cc` 215-223. -/
def makeParser : List PyVal → Option ParserP
  | [nan_values, base] => do
    let nan_values ← asSet asStr nan_values
    let base ← asInt base
    some { nanValues := nan_values, base := base }
  | _ => none

/-! ## Attributes -/

/-- `def_readwrite` of `DataReaderParams`, `data_reader.cc` 390-404, for assignments. -/
def setData (p : DataParams) : OptName → PyVal → Option DataParams
  | .dataset, v => (asVec asStore v).map fun x => { p with dataset := x }
  | .batch_size, v => (asPySize v).map fun x => { p with batchSize := x }
  | .num_prefetched_examples, v => (asPySize v).map fun x => { p with numPrefetched := x }
  | .num_parallel_reads, v => (asPySize v).map fun x => { p with numParallel := x }
  | .last_example_handling, v => (asEnum .lastExample v).map fun x => { p with lastExample := x }
  | .bad_example_handling, v => (asEnum .badExample v).map fun x => { p with badExample := x }
  | .num_instances_to_skip, v => (asPySize v).map fun x => { p with skip := x }
  | .num_instances_to_read, v => (asOpt asPySize v).map fun x => { p with read := x }
  | .shard_index, v => (asPySize v).map fun x => { p with shardIndex := x }
  | .num_shards, v => (asPySize v).map fun x => { p with numShards := x }
  | .sample_ratio, v => (asOpt asFloat v).map fun x => { p with sampleRatio := x }
  | .shuffle_instances, v => (asBool v).map fun x => { p with shuffle := x }
  | .shuffle_window, v => (asPySize v).map fun x => { p with window := x }
  | .shuffle_seed, v => (asOpt asPySize v).map fun x => { p with seed := x }
  | .reshuffle_each_epoch, v => (asBool v).map fun x => { p with reshuffle := x }
  | _, _ => none

/-- `def_readwrite` of `CsvParams`, `data_reader.cc` 520-539, for assignments. -/
def setCsv (h : PyHeap) (p : CsvP) : OptName → PyVal → Option CsvP
  | .column_names, v => (asVec asStr v).map fun x => { p with columnNames := x }
  | .name_prefix, v => (asStr v).map fun x => { p with namePrefix := x }
  | .use_columns, v => (asSet asStr v).map fun x => { p with useColumns := x }
  | .use_columns_by_index, v => (asSet asPySize v).map fun x => { p with useIndices := x }
  | .default_data_type, v => (asOpt (asEnum .dataType) v).map fun x => { p with defaultType := x }
  | .column_types, v => (asMap asStr (asEnum .dataType) v).map fun x => { p with types := x }
  | .column_types_by_index, v => (asMap asPySize (asEnum .dataType) v).map fun x => { p with typesByIndex := x }
  | .header_row_index, v => (asOpt asPySize v).map fun x => { p with headerRow := x }
  | .has_single_header, v => (asBool v).map fun x => { p with singleHeader := x }
  | .dedupe_column_names, v => (asBool v).map fun x => { p with dedupe := x }
  | .delimiter, v => (asChar v).map fun x => { p with delimiter := x }
  | .quote_char, v => (asChar v).map fun x => { p with quote := x }
  | .comment_char, v => (asOpt asChar v).map fun x => { p with comment := x }
  | .allow_quoted_new_lines, v => (asBool v).map fun x => { p with quotedNewLines := x }
  | .skip_blank_lines, v => (asBool v).map fun x => { p with skipBlank := x }
  | .encoding, v => (asEncoding v).map fun x => { p with encoding := x }
  | .max_field_length, v => (asOpt asPySize v).map fun x => { p with maxField := x }
  | .max_field_length_handling, v => (asEnum .maxField v).map fun x => { p with maxFieldHandling := x }
  | .max_line_length, v => (asOpt asPySize v).map fun x => { p with maxLine := x }
  | .parser_options, v => (h.asParser v).map fun x => { p with parser := x }
  | _, _ => none

/-- `def_readwrite` of `ImageReaderParams`, `data_reader.cc` 563-566, for assignments. -/
def setImage (p : ImageP) : OptName → PyVal → Option ImageP
  | .image_frame, v => (asEnum .imageFrame v).map fun x => { p with frame := x }
  | .resize, v => (asOpt asPySize v).map fun x => { p with resize := x }
  | .image_dimensions, v => (asVec asPySize v).map fun x => { p with dims := x }
  | .to_rgb, v => (asBool v).map fun x => { p with toRgb := x }
  | _, _ => none

/-- `def_readwrite` of `ParserParams`, `data_reader.cc` 586-587, for assignments. -/
def setParser (p : ParserP) : OptName → PyVal → Option ParserP
  | .nan_values, v => (asSet asStr v).map fun x => { p with nanValues := x }
  | .number_base, v => (asInt v).map fun x => { p with base := x }
  | _, _ => none

/-- `std::optional` to Python. -/
def ofOpt {α : Type} (f : α → PyVal) : Option α → PyVal
  | none => .none
  | some x => f x

def ofSize (n : Nat) : PyVal := .int n
def ofChar (c : UInt8) : PyVal := if c < 128 then .str [c] else .str [0xC0 + c / 64, 0x80 + c % 64]

/-- `def_readwrite`, for reading. -/
def getData (p : DataParams) : OptName → Option PyVal
  | .dataset => some (.list (p.dataset.map (ofOpt .store)))
  | .batch_size => some (ofSize p.batchSize)
  | .num_prefetched_examples => some (ofSize p.numPrefetched)
  | .num_parallel_reads => some (ofSize p.numParallel)
  | .last_example_handling => some (.enum .lastExample p.lastExample)
  | .bad_example_handling => some (.enum .badExample p.badExample)
  | .num_instances_to_skip => some (ofSize p.skip)
  | .num_instances_to_read => some (ofOpt ofSize p.read)
  | .shard_index => some (ofSize p.shardIndex)
  | .num_shards => some (ofSize p.numShards)
  | .sample_ratio => some (ofOpt .float p.sampleRatio)
  | .shuffle_instances => some (.bool p.shuffle)
  | .shuffle_window => some (ofSize p.window)
  | .shuffle_seed => some (ofOpt ofSize p.seed)
  | .reshuffle_each_epoch => some (.bool p.reshuffle)
  | _ => none

/-- The same for `CsvParams`; `parser_options` is in `pyStep`.  An encoding cannot be converted to Python. -/
def getCsv (p : CsvP) : OptName → Option PyVal
  | .column_names => some (.list (p.columnNames.map .str))
  | .name_prefix => some (.str p.namePrefix)
  | .use_columns => some (.set (p.useColumns.map .str))
  | .use_columns_by_index => some (.set (p.useIndices.map ofSize))
  | .default_data_type => some (ofOpt (.enum .dataType) p.defaultType)
  | .column_types => some (.dict (p.types.map fun e => (.str e.1, .enum .dataType e.2)))
  | .column_types_by_index => some (.dict (p.typesByIndex.map fun e => (ofSize e.1, .enum .dataType e.2)))
  | .header_row_index => some (ofOpt ofSize p.headerRow)
  | .has_single_header => some (.bool p.singleHeader)
  | .dedupe_column_names => some (.bool p.dedupe)
  | .delimiter => some (ofChar p.delimiter)
  | .quote_char => some (ofChar p.quote)
  | .comment_char => some (ofOpt ofChar p.comment)
  | .allow_quoted_new_lines => some (.bool p.quotedNewLines)
  | .skip_blank_lines => some (.bool p.skipBlank)
  | .encoding => match p.encoding with
    | none => some .none
    | some _ => none
  | .max_field_length => some (ofOpt ofSize p.maxField)
  | .max_field_length_handling => some (.enum .maxField p.maxFieldHandling)
  | .max_line_length => some (ofOpt ofSize p.maxLine)
  | _ => none

def getImage (p : ImageP) : OptName → Option PyVal
  | .image_frame => some (.enum .imageFrame p.frame)
  | .resize => some (ofOpt ofSize p.resize)
  | .image_dimensions => some (.list (p.dims.map ofSize))
  | .to_rgb => some (.bool p.toRgb)
  | _ => none

def getParser (p : ParserP) : OptName → Option PyVal
  | .nan_values => some (.set (p.nanValues.map .str))
  | .number_base => some (.int p.base)
  | _ => none

/-! ## Histories -/

/-- The classes of options. -/
inductive OptClass where
  | data | csv | image | parser
  deriving DecidableEq, Repr

/-- What a program does: construct options, assign and read attributes, construct readers. -/
inductive PyOp where
  | construct (c : OptClass) (pos : List PyVal) (kw : List (OptName × PyVal))
  | assign (o : Nat) (n : OptName) (v : PyVal)
  | get (o : Nat) (n : OptName)
  | csvReader (data : PyVal) (csv : PyVal)
  | imageReader (data : PyVal) (image : PyVal)
  | protoReader (data : PyVal)
  | textReader (data : PyVal)

def PyHeap.asData (h : PyHeap) : PyVal → Option DataParams
  | .obj i => match h[i]? with
    | some (.data p) => some p
    | _ => none
  | _ => none

def PyHeap.asCsv (h : PyHeap) : PyVal → Option CsvP
  | .obj i => match h[i]? with
    | some (.csv p) => some p
    | _ => none
  | _ => none

def PyHeap.asImage (h : PyHeap) : PyVal → Option ImageP
  | .obj i => match h[i]? with
    | some (.image p) => some p
    | _ => none
  | _ => none

/-- A new object, and the reference to it; `none` is an exception (`TypeError`). -/
def PyHeap.push (h : PyHeap) : Option PyObj → PyHeap × Option PyVal
  | none => (h, none)
  | some x => (h ++ [x], some (.obj h.length))

/-- The object changes; `none` is an exception. -/
def PyHeap.update (h : PyHeap) (i : Nat) : Option PyObj → PyHeap × Option PyVal
  | none => (h, none)
  | some x => (h.set i x, some .none)

/-- Assigning an attribute. -/
def PyHeap.assign (h : PyHeap) (i : Nat) (n : OptName) (v : PyVal) : PyHeap × Option PyVal :=
  match h[i]? with
  | some (.data p) => h.update i ((setData p n v).map .data)
  | some (.csv p) => h.update i ((setCsv h p n v).map .csv)
  | some (.image p) => h.update i ((setImage p n v).map .image)
  | some (.parser p) => h.update i ((setParser p n v).map .parser)
  | some (.parserIn c) =>
    match h[c]? with
    | some (.csv p) => h.update c ((setParser p.parser n v).map fun x => .csv { p with parser := x })
    | _ => (h, none)
  | _ => (h, none)

/-- Reading an attribute. -/
def PyHeap.read (h : PyHeap) (i : Nat) (n : OptName) : PyHeap × Option PyVal :=
  match h[i]? with
  | some (.data p) => (h, getData p n)
  | some (.csv p) => if n = .parser_options then h.push (some (.parserIn i)) else (h, getCsv p n)
  | some (.image p) => (h, getImage p n)
  | some (.parser p) => (h, getParser p n)
  | some (.parserIn c) =>
    match h[c]? with
    | some (.csv p) => (h, getParser p.parser n)
    | _ => (h, none)
  | _ => (h, none)

/-- Constructing options. -/
def PyHeap.construct (h : PyHeap) (c : OptClass) (pos : List PyVal) (kw : List (OptName × PyVal)) : PyHeap × Option PyVal :=
  match c with
  | .data => h.push (((bindCall dataArgs pos kw).bind makeData).map .data)
  | .csv => h.push (((bindCall csvArgs pos kw).bind (makeCsv h)).map .csv)
  | .image => h.push (((bindCall imageArgs pos kw).bind makeImage).map .image)
  | .parser => h.push (((bindCall parserArgs pos kw).bind makeParser).map .parser)

/-- One step.  The readers: `make_csv_reader`, `data_reader.cc` 225-233, with its optional second argument, and 235-249. -/
def pyStep (h : PyHeap) : PyOp → PyHeap × Option PyVal
  | .construct c pos kw => h.construct c pos kw
  | .assign o n v => h.assign o n v
  | .get o n => h.read o n
  | .csvReader d p => h.push (do
      let d ← h.asData d
      let p ← asOpt h.asCsv p
      some (.reader (.csv d (p.getD {}))))
  | .imageReader d p => h.push (do
      let d ← h.asData d
      let p ← h.asImage p
      some (.reader (.image d p)))
  | .protoReader d => h.push ((h.asData d).map fun d => .reader (.proto d))
  | .textReader d => h.push ((h.asData d).map fun d => .reader (.text d))

def pyRun (h : PyHeap) : List PyOp → PyHeap
  | [] => h
  | a :: as => pyRun (pyStep h a).1 as

end Mlio
