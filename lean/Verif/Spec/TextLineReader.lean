import Verif.Spec.Csv
import Verif.Spec.Utf8Stream
import Verif.Spec.Instances
import Verif.Model.TextLineReader
import Verif.Spec.TextSource

/-!
# What the text line reader is meant to deliver
-/

namespace Mlio.Spec

/-- How text is stored in a file. -/
inductive Encoding where
  | utf8
  | utf8Mark
  | utf16 (bigEndian : Bool)
  | utf32 (bigEndian : Bool)
  deriving DecidableEq, Repr

/-- The file holds the text with the UTF-8 bytes `text`: as it is (and it does not look like something with a byte order
mark), after a byte order mark, or in UTF-16 or UTF-32 with a byte order mark. -/
def Encodes (enc : Encoding) (text file : Bytes) : Prop :=
  match enc with
  | .utf8 => file = text ∧ ∀ name, ¬ HasMark file name
  | .utf8Mark => file = bomUtf8 ++ text
  | .utf16 be => ∃ cs : List Char, text = cs.flatMap encode8 ∧ file = (Char.ofNat 0xFEFF :: cs).flatMap (encode16 be)
  | .utf32 be => ∃ cs : List Char, text = cs.flatMap encode8 ∧ file = (Char.ofNat 0xFEFF :: cs).flatMap (encode32 be)

/-- A file, as `Data_store::open_read` returns it: a stream over `bytes` that can seek or not, and that supports zero-copy
reads (`Memory_input_stream`) or not. -/
structure StoreFile (m : SrcClass) where
  bytes : Bytes
  zeroCopy : Bool
  seekable : Bool
  stream : m.σ

/-- The data store holds the text, and none of the known deviations is in the way: a stream that cannot seek has more
than four bytes (for UTF-16 and UTF-32), text in UTF-16, little endian, does not start with the character zero, and
unless the reader works on the memory of the data store, the text is shorter than a chunk or has no CRLF (which
matters only for a reader that is not `crlfSafe`).  The stream need not answer reads of more than 2 GiB or of more than
twice the text. -/
structure Stored {m : SrcClass} (crlfSafe : Prop) (enc : Encoding) (text : Bytes) (f : StoreFile m) : Prop where
  source : SourceOf (max (2 ^ 31) (2 * (text.length + 3))) m f.zeroCopy f.seekable f.bytes f.stream
  encodes : Encodes enc text f.bytes
  seekable : f.zeroCopy = true → f.seekable = true
  long : enc ≠ .utf8 → enc ≠ .utf8Mark → f.seekable = true ∨ 4 < f.bytes.length
  notZero : enc = .utf16 false → text.head? ≠ some 0
  fits : (f.zeroCopy = true ∧ enc = .utf8) ∨ text.length + 3 < chunkSize ∨
    (crlfSafe ∨ ¬ [13, 10] <:+: text)

/-- The order in which an epoch returns the instances that the options select: as they are, or shuffled within the
window. -/
def EpochOrder {α : Type} (o : ReadOptions) (chosen ys : List α) : Prop :=
  match o.shuffle with
  | none => ys = chosen
  | some p => ys.Perm chosen ∧ WindowShuffle (if p.window = 0 then chosen.length else p.window) chosen ys

/-- The instances of data stores with the given rows: numbered in each store. -/
def rowInstances (xss : List (List Bytes)) : List Inst :=
  xss.zipIdx.flatMap fun p => p.1.zipIdx.map fun q => ⟨p.2, q.2, some q.1⟩

/-- The example made of a batch of lines: the lines, and empty strings up to the size of the batch. -/
def lineExample (b : Batch Bytes) : LinesExample :=
  ⟨b.instances ++ List.replicate (b.size - b.instances.length) [], b.size - b.instances.length⟩

end Mlio.Spec
