import Verif.Model.TextSource
import Verif.Model.Text
import Verif.Model.CoreReader
import Verif.Model.Pipeline

/-!
# The text line reader as a whole

`src/mlio/text_line_reader.cc`, and how the text readers open a data store (`src/mlio/csv_reader.cc` 108-141 does the
same with other settings).
-/

namespace Mlio

/-- `next_chunk_size_`, `record_readers/detail/default_chunk_reader.h` 53, and the buffer of `Utf8_input_stream`,
`utf8_input_stream.cc` 119. -/
def chunkSize : Nat := 0x2000000

/-- A record reader for text: over an `In_memory_chunk_reader` or a `Default_chunk_reader`.  The fuel is that of the
conversion to UTF-8. -/
inductive LineReader (codec : String → Codec) (m : SrcClass) (fuel : Nat) where
  | memory (r : MemReader)
  | stream (r : GReader (textOver m.toInStream codec fuel))

/-- `make_chunk_reader`, `record_readers/detail/chunk_reader.cc` 30-47, for the stream made by `make_utf8_stream`
(`text_line_reader.cc` 46-47) of a stream that a data store has opened: only a stream that is not wrapped can support
zero-copy reads. -/
def openLines (codec : String → Codec) (m : SrcClass) (fuel : Nat) (encoding : Option String) (s : m.σ) :
    Res (LineReader codec m fuel) :=
  match makeText codec m chunkSize s encoding with
  | .err e => .err e
  | .ub w => .ub w
  | .ok (.same s) =>
    match m.whole s with
    | some x => .ok (.memory ⟨x, []⟩)
    | none => .ok (.stream (GReader.init chunkSize (.same s)))
  | .ok (.wrapped name u) => .ok (.stream (GReader.init chunkSize (.wrapped name u)))

/-- `read_record_core` of either. -/
def LineReader.read {codec : String → Codec} {m : SrcClass} {fuel : Nat} (dec : Bytes → Bool → Dec Record) :
    LineReader codec m fuel → Res (Option Record) × LineReader codec m fuel
  | .memory r => ((r.read dec).1, .memory (r.read dec).2)
  | .stream r => ((r.read dec fuel).1, .stream (r.read dec fuel).2)

/-- The record readers as a class (`init` and `reset` are not used, see `Verif/Model/CoreReader.lean`). -/
def lineMachine (codec : String → Codec) (m : SrcClass) (dec : Bytes → Bool → Dec Record) (fuel : Nat) : Machine Record where
  σ := LineReader codec m fuel
  init := .memory ⟨[], []⟩
  read := LineReader.read dec
  reset := id

/-- The record reader factory for one data store, as `Core_instance_reader` sees it. -/
def lineStore (codec : String → Codec) (m : SrcClass) (fuel : Nat) (encoding : Option String) (s : m.σ) :
    Res (Option (LineReader codec m fuel)) :=
  match openLines codec m fuel encoding s with
  | .ok r => .ok (some r)
  | .err e => .err e
  | .ub w => .ub w

/-- The `Core_instance_reader` of a text reader whose data stores have been given to its record reader factory. -/
def lineCore (codec : String → Codec) (m : SrcClass) (dec : Bytes → Bool → Dec Record) (fuel : Nat)
    (stores : List (Res (Option (LineReader codec m fuel)))) : Machine Inst :=
  coreReader (lineMachine codec m dec fuel) stores fuel

/-- The `Core_instance_reader` of a `Text_line_reader` over a dataset, given by the streams that its data stores open:
`make_record_reader`, `text_line_reader.cc` 44-48,
with the default encoding, and records as `Text_line_record_reader` with `skip_blank_lines` false makes them. -/
def textLineCore (codec : String → Codec) (m : SrcClass) (fuel : Nat) (files : List m.σ) : Machine Inst :=
  lineCore codec m (textDecode false) fuel (files.map (lineStore codec m fuel none))

/-- The example of a `Text_line_reader`: the strings of its only tensor, of shape `[size, 1]`, and `padding`. -/
structure LinesExample where
  rows : List Bytes
  padding : Nat
  deriving DecidableEq, Repr

/-- The loop of `Text_line_reader::decode`, `text_line_reader.cc` 62-65, at position `pos` of the tensor. -/
def writeRows : (rows : List Bytes) → (pos : Nat) → List Inst → Res (List Bytes)
  | rows, _, [] => .ok rows
  | rows, pos, i :: is =>
    if pos < rows.length then writeRows (rows.set pos (i.bits.getD [])) (pos + 1) is
    else .ub "row past the end of the tensor"

/-- `Text_line_reader::decode` and `make_tensor`, `text_line_reader.cc` 58-84.  The bits of the instances are there (the
instances are lines, not whole data stores). -/
def decodeLines (b : Batch Inst) : Res LinesExample :=
  match writeRows (List.replicate b.size []) 0 b.instances with
  | .ok rows => .ok ⟨rows, b.size - b.instances.length⟩
  | .err e => .err e
  | .ub w => .ub w

/-- What a decode function hands to the pipeline (`parallel_data_reader.cc` 218-236): an example, nothing, or an exception.
There is no undefined behaviour in what the theorems cover, so that it does not matter what it is mapped to. -/
def toDecode {β ε : Type} (f : β → Res (Option ε)) (b : β) : Except Err (Option ε) :=
  match f b with
  | .ok o => .ok o
  | .err e => .error e
  | .ub _ => .error .diverges

/-- The decode function of the text line reader. -/
def textLineDecode (b : Batch Inst) : Except Err (Option LinesExample) :=
  toDecode (fun b => match decodeLines b with | .ok e => .ok (some e) | .err e => .err e | .ub w => .ub w) b

end Mlio
