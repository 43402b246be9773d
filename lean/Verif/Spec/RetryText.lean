import Verif.Spec.Retry
import Verif.Spec.Csv
import Verif.Model.StreamReader

/-! # Record readers as machines -/

namespace Mlio.Spec

/-- A record reader over a stream (`Stream_record_reader` with `Default_chunk_reader`), for a decoder. -/
def streamMachine (dec : Bytes → Bool → Dec Record) : Machine Record where
  σ := Reader
  init := Reader.init 1 [] []
  read := Reader.read dec
  reset := id

/-- A record reader over memory (`Stream_record_reader` with `In_memory_chunk_reader`). -/
def memoryMachine (dec : Bytes → Bool → Dec Record) : Machine Record where
  σ := MemReader
  init := ⟨[], []⟩
  read := MemReader.read dec
  reset := id

end Mlio.Spec
