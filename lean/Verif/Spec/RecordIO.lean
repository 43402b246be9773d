import Verif.Basic

/-!
# The RecordIO file format, written down independently of the decoder
-/

namespace Mlio.Spec

/-- The four bytes of a 32-bit number, least significant first. -/
def u32le (n : Nat) : Bytes :=
  [UInt8.ofNat (n % 256), UInt8.ofNat (n / 256 % 256), UInt8.ofNat (n / 65536 % 256),
    UInt8.ofNat (n / 16777216 % 256)]

/-- One record as written to a file: magic number, a word with the kind in the upper three
bits and the payload length in the lower 29, the payload, and padding up to a multiple of
four (the padding bytes may have any value). -/
structure Frame where
  kind : Nat
  payload : Bytes
  padding : Bytes

/-- The kind fits three bits, the length 29 bits, and the padding is the right one. -/
def Frame.Valid (f : Frame) : Prop :=
  f.kind < 8 ∧ f.payload.length < 2 ^ 29 ∧ f.padding.length < 4 ∧
    (f.payload.length + f.padding.length) % 4 = 0

def Frame.bytes (f : Frame) : Bytes :=
  u32le 0xced7230a ++ u32le (f.kind * 2 ^ 29 + f.payload.length) ++ f.payload ++ f.padding

/-- A RecordIO file. -/
def recordioFile (fs : List Frame) : Bytes := fs.flatMap Frame.bytes

end Mlio.Spec
