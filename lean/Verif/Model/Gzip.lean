import Verif.Model.InputStream

/-!
# Inflating streams

`src/mlio/streams/gzip_inflate_stream.cc`, `src/mlio/streams/detail/zlib.cc`.

The compressed format is a parameter: what the bytes of a member of a gzip (or zlib) file mean is given by an
`Inflater`.
-/

namespace Mlio

/-- What the next byte of a member means: it completes symbols that stand for `out`; it is the last byte of the checksum
that ends the member; or it does not belong there. -/
inductive Fed (σ : Type) where
  | more (out : Bytes) (s : σ)
  | last
  | bad

/-- The compressed format, byte by byte. -/
structure Inflater where
  σ : Type
  init : σ
  feed : σ → UInt8 → Fed σ

/-- `state_`, `detail/zlib.h` 51: what the last call of `inflate` returned; `Z_STREAM_END` at first. -/
inductive ZStatus where
  | ok
  | streamEnd
  | dataError
  deriving DecidableEq, Repr

/-- The outcome of `::inflate`: what it returns, the state, the output that did not fit, the input that was not used,
and what was written. -/
structure Inflated (σ : Type) where
  status : ZStatus
  state : σ
  pend : Bytes
  left : Bytes
  out : Bytes

/-- `::inflate(&stream_, Z_NO_FLUSH)`: it goes on until it needs input or room, or the member ends, after which
`::inflateReset` follows (`zlib.cc` 70-72).  `pend` is output that is due. -/
def inflateLoop (z : Inflater) : (inp : Bytes) → z.σ → (pend : Bytes) → (room : Nat) → Inflated z.σ
  | [], s, pend, room => ⟨.ok, s, pend.drop room, [], pend.take room⟩
  | b :: bs, s, pend, room =>
    if room < pend.length then ⟨.ok, s, pend.drop room, b :: bs, pend.take room⟩
    else
      match z.feed s b with
      | .bad => ⟨.dataError, s, [], b :: bs, pend⟩
      | .last => ⟨.streamEnd, z.init, [], bs, pend⟩
      | .more out s' =>
        let r := inflateLoop z bs s' out (room - pend.length)
        { r with out := pend ++ r.out }

/-- A `Gzip_inflate_stream`, `gzip_inflate_stream.h` 63-66, with its `Zlib_inflater`; `buf` are the bytes from
`buffer_pos_` to the end of `buffer_`. -/
structure GzStream (m : InStream) (z : Inflater) where
  inner : m.σ
  buf : Bytes
  state : z.σ
  pend : Bytes
  status : ZStatus

/-- The constructor, `gzip_inflate_stream.cc` 30-34. -/
def GzStream.new {m : InStream} (z : Inflater) (inner : m.σ) : GzStream m z := ⟨inner, [], z.init, [], .streamEnd⟩

/-- `Zlib_inflater::inflate` and the end of `read`, `zlib.cc` 50-76, `gzip_inflate_stream.cc` 63-71: the number that is
returned, and the bytes that were written. The size of the destination is converted to 32 bits (`zlib.cc` 64); a call of
`::inflate` that neither reads nor writes anything gives `Z_BUF_ERROR`, which hits `assert(false)` (98). -/
def GzStream.inflate {m : InStream} {z : Inflater} (g : GzStream m z) (n : Nat) : Res (Nat × Bytes) × GzStream m z :=
  if g.status = .dataError then (.err .inflateError, g)
  else
    let room := n % 2 ^ 32
    let r := inflateLoop z g.buf g.state g.pend room
    match r.status with
    | .dataError => (.err .inflateError, { g with status := .dataError })
    | _ =>
      if r.left.length = g.buf.length ∧ r.out = [] then (.ub "assertion", g)
      else
        (.ok (n - (room - r.out.length), r.out),
          { g with buf := r.left, state := r.state, pend := r.pend, status := r.status })

/-- `read`, `gzip_inflate_stream.cc` 38-72.  Closed streams are left out. -/
def GzStream.read {m : InStream} {z : Inflater} (g : GzStream m z) (n : Nat) : Res (Nat × Bytes) × GzStream m z :=
  if n = 0 then (.ok (0, []), g)
  else if g.buf.isEmpty then
    match m.read g.inner 0x80000 with
    | (.err e, inner') => (.err e, { g with inner := inner' })
    | (.ub w, inner') => (.ub w, { g with inner := inner' })
    | (.ok b, inner') =>
      let g' := { g with inner := inner', buf := b }
      if b.isEmpty then
        if g.status = .streamEnd then (.ok (0, []), g') else (.err .inflateError, g')
      else g'.inflate n
  else g.inflate n

/-- Successive reads. -/
def GzStream.reads {m : InStream} {z : Inflater} : GzStream m z → List Nat → List (Res (Nat × Bytes))
  | _, [] => []
  | g, n :: ns => (g.read n).1 :: (g.read n).2.reads ns

end Mlio
