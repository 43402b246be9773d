import Verif.Model.DataStore
import Verif.Model.CsvReader

/-!
# Data readers over data stores

How the readers get from the data stores of a dataset (`Data_reader_params::dataset`) to their record readers:
`make_record_reader` of `src/mlio/text_line_reader.cc`, `src/mlio/csv_reader.cc` and
`src/mlio/recordio_protobuf_reader.cc`.
-/

namespace Mlio

/-- `open_read` and then something with the stream. -/
def Store.openWith {α : Type} (z : Inflater) (w : World) (f : StoreStm z → Res α) (st : Store) : Res α :=
  match st.openRead z w with
  | .ok s => f s
  | .err e => .err e
  | .ub w => .ub w

/-- The `Core_instance_reader` of a `Text_line_reader`: `make_record_reader`, `text_line_reader.cc` 44-48, for each data
store when its turn comes (`core_instance_reader.cc` 175-206).  What the process can reach does not change meanwhile. -/
def textStoreCore (codec : String → Codec) (z : Inflater) (w : World) (fuel : Nat) (stores : List Store) : Machine Inst :=
  lineCore codec (storeSrc z) (textDecode false) fuel
    (stores.map (Store.openWith z w (lineStore codec (storeSrc z) fuel none)))

/-- The `Core_instance_reader` of a `Csv_reader`: `csv_reader.cc` 100-123, where `encoding` is `Csv_params::encoding`. -/
def csvStoreCore (codec : String → Codec) (z : Inflater) (w : World) (p : CsvParams) (o : CsvOpts) (encoding : Option String)
    (fuel : Nat) (stores : List Store) : Machine Inst :=
  csvCoreOver codec (storeSrc z) p o fuel (stores.map (Store.openWith z w (openLines codec (storeSrc z) fuel encoding)))

/-- The `Core_instance_reader` of a `Recordio_protobuf_reader`: `make_record_reader`, `recordio_protobuf_reader.cc`
120-123. -/
def protoStoreCore (z : Inflater) (w : World) (fuel : Nat) (stores : List Store) : Machine Inst :=
  coreReader (recMachine (storeIn z) recordioDecode fuel)
    (stores.map (Store.openWith z w fun s => .ok (some s.opened.reader))) fuel

end Mlio
