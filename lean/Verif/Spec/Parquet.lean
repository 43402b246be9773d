import Verif.Spec.RecordIO

/-! # What a Parquet file looks like from outside -/

namespace Mlio.Spec

/-- "PAR1" -/
def par1 : Bytes := [0x50, 0x41, 0x52, 0x31]

/-- First bytes that a file metadata can have (Thrift compact field headers). -/
def thriftHeaders : List UInt8 := [0x15, 0x29, 0x36, 0x49, 0x59, 0x68, 0x79]

/-- A byte string laid out like a Parquet file: magic number, data, metadata, length of the metadata,
magic number; with metadata of at least nine bytes that starts with a Thrift field header and ends with a
zero byte. -/
def LooksParquet (x : Bytes) : Prop :=
  ∃ (body mdata : Bytes), x = par1 ++ body ++ mdata ++ u32le mdata.length ++ par1 ∧
    9 ≤ mdata.length ∧ mdata.length < 2 ^ 32 ∧
    (∃ h ∈ thriftHeaders, mdata.head? = some h) ∧ mdata.getLast? = some 0

/-- A Parquet file that has no shorter Parquet file as prefix. -/
def MinimalParquet (x : Bytes) : Prop :=
  LooksParquet x ∧ ∀ y, y <+: x → LooksParquet y → y = x

end Mlio.Spec
