import Verif.Model.InputStream

/-!
# UTF-8 conversion of any input stream

`src/mlio/streams/utf8_input_stream.cc` again (see `Verif/Model/Utf8Stream.lean`), this time not over the abstract `Stream`,
but over any class derived from `Input_stream`, which may also throw exceptions.
-/

namespace Mlio

/-- A class derived from `Input_stream`, `include/mlio/streams/input_stream.h` 33-63, with what `make_utf8_stream` and
`make_chunk_reader` use besides `read(destination)`: `seek(0)`, where `none` says that `seekable()` is false, and what
`read(size)` gives for the rest of the stream if `supports_zero_copy()` is true. -/
structure SrcClass extends InStream where
  seek0 : σ → Option (Res Unit × σ)
  whole : σ → Option Bytes

/-- A `Utf8_input_stream`, `include/mlio/streams/utf8_input_stream.h` 84-92, over streams of a class; see `Utf8Stream`. -/
structure GUtf8 (m : InStream) (c : Codec) where
  inner : m.σ
  isUtf8 : Bool
  mem : Bytes
  pos : Nat
  fin : Nat
  shouldFill : Bool
  rest : Bytes
  state : c.σ

variable {m : InStream} {c : Codec}

/-- `fill_buffer` (38-51) and what follows, `utf8_input_stream.cc` 130-153: `none` at the end of the stream. -/
def GUtf8.refill (u : GUtf8 m c) : Res (Option Unit) × GUtf8 m c :=
  match gFill m (u.fin - u.pos) u.inner (u.fin - u.pos) with
  | (.err e, inner') => (.err e, { u with inner := inner' })
  | (.ub w, inner') => (.ub w, { u with inner := inner' })
  | (.ok (got, _), inner') =>
    let u' := { u with inner := inner', mem := overwriteFrom u.mem u.pos got, fin := u.pos + got.length }
    if got.length = 0 then
      if u.pos ≠ 0 then (.err .streamError, u') else (.ok none, u')
    else (.ok (some ()), { u' with pos := 0, shouldFill := false })

/-- The conversion in the loop, 155-181. -/
def GUtf8.transcode (u : GUtf8 m c) (room : Nat) : Res Bytes × GUtf8 m c :=
  let inp := (u.mem.take u.fin).drop u.pos
  let r := iconvLoop c inp.length u.state inp room
  match r.status with
  | .invalid => (.err .streamError, u)
  | .incompleteChar =>
    (.ok r.out, { u with mem := overwriteFrom u.mem 0 r.left, pos := r.left.length, shouldFill := true, state := r.state })
  | .leftover => (.ok r.out, { u with pos := u.fin - r.left.length, state := r.state })
  | .ok => (.ok r.out, { u with pos := 0, shouldFill := true, state := r.state })

/-- One turn of the loop in `convert`, 128-182: the bytes written, or `none` if the end was reached. -/
def GUtf8.turn (u : GUtf8 m c) (room : Nat) : Res (Option Bytes) × GUtf8 m c :=
  let go := fun (u : GUtf8 m c) =>
    match u.transcode room with
    | (.ok b, u') => (Res.ok (some b), u')
    | (.err e, u') => (.err e, u')
    | (.ub w, u') => (.ub w, u')
  if u.shouldFill then
    match u.refill with
    | (.ok (some ()), u') => go u'
    | (.ok none, u') => (.ok none, u')
    | (.err e, u') => (.err e, u')
    | (.ub w, u') => (.ub w, u')
  else go u

/-- `convert`, 122-185: until something was written. -/
def GUtf8.convert : (fuel : Nat) → GUtf8 m c → (room : Nat) → Res Bytes × GUtf8 m c
  | 0, u, _ => (.err .diverges, u)
  | fuel + 1, u, room =>
    match u.turn room with
    | (.ok none, u') => (.ok [], u')
    | (.ok (some b), u') => if b.isEmpty then GUtf8.convert fuel u' room else (.ok b, u')
    | (.err e, u') => (.err e, u')
    | (.ub w, u') => (.ub w, u')

/-- `copy_from_remainder`, 197-206. -/
def GUtf8.copyRest (u : GUtf8 m c) (n : Nat) : Res Bytes × GUtf8 m c :=
  (.ok (u.rest.take n), { u with rest := u.rest.drop n })

/-- `read`, 57-95, for a destination of `n` bytes.  The fuel bounds the turns of `convert`; closed streams are left out. -/
def GUtf8.read (fuel : Nat) (u : GUtf8 m c) (n : Nat) : Res Bytes × GUtf8 m c :=
  if n = 0 then (.ok [], u)
  else if u.rest.isEmpty then
    if u.isUtf8 then ((m.read u.inner n).1, { u with inner := (m.read u.inner n).2 })
    else if n ≥ 4 then u.convert fuel n
    else
      match u.convert fuel 4 with
      | (.ok b, u') => if b.isEmpty then (.ok [], u') else { u' with rest := b }.copyRest n
      | (.err e, u') => (.err e, u')
      | (.ub w, u') => (.ub w, u')
  else u.copyRest n

/-- What `make_utf8_stream` returns: the stream itself, or a `Utf8_input_stream`. -/
inductive GText (m : InStream) (codec : String → Codec) where
  | same (s : m.σ)
  | wrapped (name : String) (u : GUtf8 m (codec name))

/-- The constructor, 107-120; the size of the buffer `cap` is 32 MiB.  That `iconv_open` fails is left out. -/
def GUtf8.new (c : Codec) (cap : Nat) (inner : m.σ) (name : String) : GUtf8 m c :=
  ⟨inner, name == encUtf8, [], 0, if name == encUtf8 then 0 else cap, true, [], c.init⟩

/-- `set_preamble`, 208-224. -/
def GUtf8.setPreamble (u : GUtf8 m c) (p : Bytes) : GUtf8 m c :=
  if u.isUtf8 then { u with rest := p } else { u with mem := overwriteFrom u.mem 0 p, pos := p.length }

/-- The end of `make_utf8_stream`, 323-335. -/
def wrapText (codec : String → Codec) (m : SrcClass) (cap : Nat) (s : m.σ) (preamble : Bytes) (name : String) :
    Res (GText m.toInStream codec) :=
  match m.seek0 s with
  | none => .ok (.wrapped name ((GUtf8.new (codec name) cap s name).setPreamble preamble))
  | some (.ok (), s') => .ok (.wrapped name (GUtf8.new (codec name) cap s' name))
  | some (.err e, _) => .err e
  | some (.ub w, _) => .ub w

/-- `make_utf8_stream`, 288-336. -/
def makeText (codec : String → Codec) (m : SrcClass) (cap : Nat) (s : m.σ) (encoding : Option String) :
    Res (GText m.toInStream codec) :=
  match encoding with
  | some name =>
    if name == encUtf8 || name == encLatin1 then .ok (.same s)
    else wrapText codec m cap s [] name
  | none =>
    match gFill m.toInStream 4 s 4 with
    | (.err e, _) => .err e
    | (.ub w, _) => .ub w
    | (.ok (preamble, _), s') =>
      match inferBom preamble with
      | none =>
        match m.seek0 s' with
        | none => wrapText codec m cap s' preamble encUtf8
        | some (.ok (), s'') => .ok (.same s'')
        | some (.err e, _) => .err e
        | some (.ub w, _) => .ub w
      | some name => wrapText codec m cap s' preamble name

/-- The streams that `make_utf8_stream` returns, as a class. -/
def textOver (m : InStream) (codec : String → Codec) (fuel : Nat) : InStream where
  σ := GText m codec
  read
    | .same s, n => ((m.read s n).1, .same (m.read s n).2)
    | .wrapped name u, n => ((u.read fuel n).1, .wrapped name (u.read fuel n).2)

/-- The abstract stream of `Verif/Model/StreamReader.lean`, at some point of its contents, as a class: a stream that can seek or
not, and is in memory or not. -/
structure AnyStream where
  all : Bytes
  rest : Stream
  seekable : Bool
  zeroCopy : Bool

/-- See `AnyStream`. -/
def anySrc : SrcClass where
  σ := AnyStream
  read s n := (.ok (s.rest.read n).1, { s with rest := (s.rest.read n).2 })
  seek0 s := if s.seekable then some (.ok (), { s with rest := { s.rest with data := s.all } }) else none
  whole s := if s.zeroCopy then some s.rest.data else none

/-- An abstract stream at its beginning. -/
def AnyStream.new (all : Bytes) (zeroCopy seekable : Bool) (sched : List Nat) : AnyStream :=
  ⟨all, ⟨all, sched⟩, seekable, zeroCopy⟩

end Mlio
