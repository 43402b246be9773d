import Verif.Model.PyOptions

/-!
# What options in Python are meant to do: `doc/python/data_reader.md` 87-207

Only the types of the model are used.
-/

namespace Mlio.Spec

/-- Types of values as they are documented. -/
inductive OptKind where
  | size | int | bool | float | char | str | store
  | enum (c : EnumClass)
  | optional (k : OptKind)
  | sequence (k : OptKind)
  | set (k : OptKind)
  | dict (k v : OptKind)
  | parser

/-- The object is a `ParserParams`. -/
def IsParser (h : PyHeap) (i : Nat) : Prop := (∃ p, h[i]? = some (.parser p)) ∨ ∃ c, h[i]? = some (.parserIn c)

/-- The text of a character up to U+00FF, in UTF-8. -/
def charText (c : UInt8) : Bytes := if c.toNat < 128 then [c] else [UInt8.ofNat (192 + c.toNat / 64), UInt8.ofNat (128 + c.toNat % 64)]

/-- The value is of the type. -/
def HasKind (h : PyHeap) : OptKind → PyVal → Prop
  | .size, v => ∃ n : Nat, n < 2 ^ 64 ∧ v = .int n
  | .int, v => ∃ i : Int, -2 ^ 31 ≤ i ∧ i < 2 ^ 31 ∧ v = .int i
  | .bool, v => ∃ b, v = .bool b
  | .float, v => ∃ x, v = .float x
  | .char, v => ∃ c, v = .str (charText c)
  | .str, v => ∃ s, v = .str s
  | .store, v => ∃ n, v = .store n
  | .enum c, v => ∃ n, v = .enum c n
  | .optional k, v => v = .none ∨ HasKind h k v
  | .sequence k, v => ∃ l, v = .list l ∧ ∀ x ∈ l, HasKind h k x
  | .set k, v => ∃ l, v = .set l ∧ ∀ x ∈ l, HasKind h k x
  | .dict k e, v => ∃ l, v = .dict l ∧ ∀ x ∈ l, HasKind h k x.1 ∧ HasKind h e x.2
  | .parser, v => ∃ i, v = .obj i ∧ IsParser h i

/-- Two lists of the same length, place by place. -/
inductive Each {α : Type} (R : α → α → Prop) : List α → List α → Prop
  | nil : Each R [] []
  | cons {x y xs ys} : R x y → Each R xs ys → Each R (x :: xs) (y :: ys)

/-- The bits of a number of floating point are those of +0 or of -0. -/
def isZero (x : Nat) : Bool := x % 2 ^ 31 == 0

/-- The value stands for another one of the type: for itself if it is of the type, a truth value also for 0 or 1 and a member of an enumeration for its number where a
whole number is expected, a number or `None` for a truth value, and `None` for a missing data store. -/
def Taken (h : PyHeap) : OptKind → PyVal → PyVal → Prop
  | .size, v, w => (HasKind h .size v ∧ w = v) ∨ (v = .bool false ∧ w = .int 0) ∨ (v = .bool true ∧ w = .int 1) ∨
      ∃ c n, n < 2 ^ 64 ∧ v = .enum c n ∧ w = .int n
  | .int, v, w => (HasKind h .int v ∧ w = v) ∨ (v = .bool false ∧ w = .int 0) ∨ (v = .bool true ∧ w = .int 1) ∨
      ∃ c n, n < 2 ^ 31 ∧ v = .enum c n ∧ w = .int n
  | .bool, v, w => (HasKind h .bool v ∧ w = v) ∨ (v = .none ∧ w = .bool false) ∨ (v = .int 0 ∧ w = .bool false) ∨
      (∃ i : Int, i ≠ 0 ∧ v = .int i ∧ w = .bool true) ∨ ∃ x, v = .float x ∧ w = .bool (!isZero x)
  | .store, v, w => (HasKind h .store v ∧ w = v) ∨ (v = .none ∧ w = .none)
  | .optional k, v, w => (v = .none ∧ w = .none) ∨ (v ≠ .none ∧ Taken h k v w)
  | .sequence k, v, w => ∃ l m, v = .list l ∧ w = .list m ∧ Each (Taken h k) l m
  | .set k, v, w => ∃ l m, v = .set l ∧ w = .set m ∧ Each (Taken h k) l m
  | .dict k e, v, w => ∃ l m, v = .dict l ∧ w = .dict m ∧ Each (fun a b => Taken h k a.1 b.1 ∧ Taken h e a.2 b.2) l m
  | k, v, w => HasKind h k v ∧ w = v

/-- The type of an option. -/
def optKindOf : OptClass → OptName → Option OptKind
  | .data, .dataset => some (.sequence .store)
  | .data, .batch_size => some .size
  | .data, .num_prefetched_examples => some .size
  | .data, .num_parallel_reads => some .size
  | .data, .last_example_handling => some (.enum .lastExample)
  | .data, .bad_example_handling => some (.enum .badExample)
  | .data, .warn_bad_instances => some .bool
  | .data, .num_instances_to_skip => some .size
  | .data, .num_instances_to_read => some (.optional .size)
  | .data, .shard_index => some .size
  | .data, .num_shards => some .size
  | .data, .sample_ratio => some (.optional .float)
  | .data, .shuffle_instances => some .bool
  | .data, .shuffle_window => some .size
  | .data, .shuffle_seed => some (.optional .size)
  | .data, .reshuffle_each_epoch => some .bool
  | .csv, .column_names => some (.sequence .str)
  | .csv, .name_prefix => some .str
  | .csv, .use_columns => some (.set .str)
  | .csv, .use_columns_by_index => some (.set .size)
  | .csv, .default_data_type => some (.optional (.enum .dataType))
  | .csv, .column_types => some (.dict .str (.enum .dataType))
  | .csv, .column_types_by_index => some (.dict .size (.enum .dataType))
  | .csv, .header_row_index => some (.optional .size)
  | .csv, .has_single_header => some .bool
  | .csv, .dedupe_column_names => some .bool
  | .csv, .delimiter => some .char
  | .csv, .quote_char => some .char
  | .csv, .comment_char => some (.optional .char)
  | .csv, .allow_quoted_new_lines => some .bool
  | .csv, .skip_blank_lines => some .bool
  | .csv, .encoding => some (.optional .str)
  | .csv, .max_field_length => some (.optional .size)
  | .csv, .max_field_length_handling => some (.enum .maxField)
  | .csv, .max_line_length => some (.optional .size)
  | .csv, .parser_options => some (.optional .parser)
  | .image, .image_frame => some (.enum .imageFrame)
  | .image, .resize => some (.optional .size)
  | .image, .image_dimensions => some (.sequence .size)
  | .image, .to_rgb => some .bool
  | .parser, .nan_values => some (.set .str)
  | .parser, .number_base => some .int
  | _, _ => none

/-- The options in the order of the arguments of the constructor, with their defaults (`none`: the argument is required, or its
default is not a value of its type). -/
def signature : OptClass → List (OptName × Option PyVal)
  | .data =>
    [(.dataset, none), (.batch_size, none), (.num_prefetched_examples, some (.int 0)), (.num_parallel_reads, some (.int 0)),
     (.last_example_handling, some (.enum .lastExample 0)), (.bad_example_handling, some (.enum .badExample 0)),
     (.warn_bad_instances, some (.bool false)), (.num_instances_to_skip, some (.int 0)), (.num_instances_to_read, some .none),
     (.shard_index, some (.int 0)), (.num_shards, some (.int 0)), (.sample_ratio, some .none),
     (.shuffle_instances, some (.bool false)), (.shuffle_window, some (.int 0)), (.shuffle_seed, some .none),
     (.reshuffle_each_epoch, some (.bool true))]
  | .csv =>
    [(.column_names, some (.list [])), (.name_prefix, some (.str [])), (.use_columns, some (.set [])),
     (.use_columns_by_index, some (.set [])), (.default_data_type, some .none), (.column_types, some (.dict [])),
     (.column_types_by_index, some (.dict [])), (.header_row_index, some (.int 0)), (.has_single_header, some (.bool false)),
     (.dedupe_column_names, some (.bool true)), (.delimiter, some (.str [44])), (.quote_char, some (.str [34])),
     (.comment_char, some .none), (.allow_quoted_new_lines, some (.bool false)), (.skip_blank_lines, some (.bool true)),
     (.encoding, some .none), (.max_field_length, some .none), (.max_field_length_handling, some (.enum .maxField 0)),
     (.max_line_length, some .none), (.parser_options, some .none)]
  | .image => [(.image_frame, some (.enum .imageFrame 0)), (.resize, some .none), (.image_dimensions, none), (.to_rgb, some (.bool false))]
  | .parser => [(.nan_values, some (.set [])), (.number_base, some (.int 10))]

/-- The value that a call gives to an option: by position, by name, or its default. -/
inductive Passed : List (OptName × Option PyVal) → List PyVal → List (OptName × PyVal) → OptName → PyVal → Prop
  | position (n : OptName) (d : Option PyVal) (ps : List (OptName × Option PyVal)) (v : PyVal) (pos : List PyVal)
      (kw : List (OptName × PyVal)) : Passed ((n, d) :: ps) (v :: pos) kw n v
  | keyword (n : OptName) (d : Option PyVal) (ps : List (OptName × Option PyVal)) (v : PyVal) (kw : List (OptName × PyVal)) :
      (n, v) ∈ kw → Passed ((n, d) :: ps) [] kw n v
  | default (n : OptName) (ps : List (OptName × Option PyVal)) (v : PyVal) (kw : List (OptName × PyVal)) :
      n ∉ kw.map Prod.fst → Passed ((n, some v) :: ps) [] kw n v
  | skip (p : OptName × Option PyVal) (ps : List (OptName × Option PyVal)) (pos : List PyVal) (kw : List (OptName × PyVal))
      (n : OptName) (v : PyVal) : Passed ps pos.tail kw n v → Passed (p :: ps) pos kw n v

/-- A correct call: no argument twice, none that does not exist, all that are required, and values of the documented types. -/
structure GoodCall (h : PyHeap) (c : OptClass) (pos : List PyVal) (kw : List (OptName × PyVal)) : Prop where
  few : pos.length ≤ (signature c).length
  known : ∀ e ∈ kw, e.1 ∈ ((signature c).map Prod.fst).drop pos.length
  once : (kw.map Prod.fst).Nodup
  required : ∀ p ∈ (signature c).drop pos.length, p.2 = none → p.1 ∈ kw.map Prod.fst
  positional : ∀ (i : Nat) n v k, ((signature c).map Prod.fst)[i]? = some n → pos[i]? = some v → optKindOf c n = some k → HasKind h k v
  named : ∀ n v k, (n, v) ∈ kw → optKindOf c n = some k → HasKind h k v

/-- What a reader does with the options: a value of `Data_reader_params`, under the name of the option. -/
def dataOption (p : DataParams) : OptName → Option PyVal
  | .dataset => some (.list (p.dataset.map fun s => s.elim .none .store))
  | .batch_size => some (.int p.batchSize)
  | .num_prefetched_examples => some (.int p.numPrefetched)
  | .num_parallel_reads => some (.int p.numParallel)
  | .last_example_handling => some (.enum .lastExample p.lastExample)
  | .bad_example_handling => some (.enum .badExample p.badExample)
  | .warn_bad_instances => some (.bool p.warnBad)
  | .num_instances_to_skip => some (.int p.skip)
  | .num_instances_to_read => some (p.read.elim .none fun n : Nat => .int n)
  | .shard_index => some (.int p.shardIndex)
  | .num_shards => some (.int p.numShards)
  | .sample_ratio => some (p.sampleRatio.elim .none .float)
  | .shuffle_instances => some (.bool p.shuffle)
  | .shuffle_window => some (.int p.window)
  | .shuffle_seed => some (p.seed.elim .none fun n : Nat => .int n)
  | .reshuffle_each_epoch => some (.bool p.reshuffle)
  | _ => none

def parserOption (p : ParserP) : OptName → Option PyVal
  | .nan_values => some (.set (p.nanValues.map .str))
  | .number_base => some (.int p.base)
  | _ => none

/-- The same for `Csv_params`; the options of the parser are among them. -/
def csvOption (p : CsvP) : OptName → Option PyVal
  | .column_names => some (.list (p.columnNames.map .str))
  | .name_prefix => some (.str p.namePrefix)
  | .use_columns => some (.set (p.useColumns.map .str))
  | .use_columns_by_index => some (.set (p.useIndices.map fun n : Nat => .int n))
  | .default_data_type => some (p.defaultType.elim .none (.enum .dataType))
  | .column_types => some (.dict (p.types.map fun e => (.str e.1, .enum .dataType e.2)))
  | .column_types_by_index => some (.dict (p.typesByIndex.map fun e => (.int e.1, .enum .dataType e.2)))
  | .header_row_index => some (p.headerRow.elim .none fun n : Nat => .int n)
  | .has_single_header => some (.bool p.singleHeader)
  | .dedupe_column_names => some (.bool p.dedupe)
  | .delimiter => some (.str (charText p.delimiter))
  | .quote_char => some (.str (charText p.quote))
  | .comment_char => some (p.comment.elim .none fun c => .str (charText c))
  | .allow_quoted_new_lines => some (.bool p.quotedNewLines)
  | .skip_blank_lines => some (.bool p.skipBlank)
  | .encoding => some (p.encoding.elim .none .str)
  | .max_field_length => some (p.maxField.elim .none fun n : Nat => .int n)
  | .max_field_length_handling => some (.enum .maxField p.maxFieldHandling)
  | .max_line_length => some (p.maxLine.elim .none fun n : Nat => .int n)
  | n => parserOption p.parser n

def imageOption (p : ImageP) : OptName → Option PyVal
  | .image_frame => some (.enum .imageFrame p.frame)
  | .resize => some (p.resize.elim .none fun n : Nat => .int n)
  | .image_dimensions => some (.list (p.dims.map fun n : Nat => .int n))
  | .to_rgb => some (.bool p.toRgb)
  | _ => none

/-- An option of an object, in Python or (a reader) in use. -/
def optionOf (h : PyHeap) (i : Nat) (n : OptName) : Option PyVal :=
  match h[i]? with
  | some (.data p) => dataOption p n
  | some (.csv p) => csvOption p n
  | some (.image p) => imageOption p n
  | some (.parser p) => parserOption p n
  | some (.parserIn c) =>
    match h[c]? with
    | some (.csv p) => parserOption p.parser n
    | _ => none
  | some (.reader (.csv d p)) => (dataOption d n).or (csvOption p n)
  | some (.reader (.image d p)) => (dataOption d n).or (imageOption p n)
  | some (.reader (.proto d)) => dataOption d n
  | some (.reader (.text d)) => dataOption d n
  | none => none

/-- The class of an object. -/
def ClassIs (h : PyHeap) (i : Nat) : OptClass → Prop
  | .data => ∃ p, h[i]? = some (.data p)
  | .csv => ∃ p, h[i]? = some (.csv p)
  | .image => ∃ p, h[i]? = some (.image p)
  | .parser => IsParser h i

/-- Two names for the same object, as far as options of the parser go: what `x.parser_options` gives is a part of `x`. -/
def Same (h : PyHeap) (i j : Nat) : Prop :=
  i = j ∨ h[i]? = some (.parserIn j) ∨ h[j]? = some (.parserIn i) ∨ ∃ c, h[i]? = some (.parserIn c) ∧ h[j]? = some (.parserIn c)

/-- The operation is an assignment to this option of this object. -/
def Assigns (h : PyHeap) (op : PyOp) (i : Nat) (n : OptName) : Prop :=
  ∃ o m v, op = .assign o m v ∧ Same h o i ∧ (m = n ∨ (m = .parser_options ∧ (n = .nan_values ∨ n = .number_base)))

/-- No operation of the history is one. -/
def NeverAssigns : PyHeap → List PyOp → Nat → OptName → Prop
  | _, [], _, _ => True
  | h, op :: ops, i, n => ¬ Assigns h op i n ∧ NeverAssigns (pyStep h op).1 ops i n

/-- Objects as they are after a history. -/
def PyReachable (h : PyHeap) : Prop := ∃ ops, h = pyRun [] ops

end Mlio.Spec
