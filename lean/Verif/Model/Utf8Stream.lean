import Verif.Model.StreamReader

/-!
# UTF-8 conversion of streams

`src/mlio/streams/utf8_input_stream.cc`, `src/mlio/streams/detail/iconv.cc`, `src/mlio/text_encoding.cc`.

`iconv(3)` is a parameter: what it does with the next character of the input is given by a `Codec`.
-/

namespace Mlio

/-- What `iconv` finds at the beginning of its (non-empty) input: a character or shift sequence of `n` bytes, for which
it writes `out`; the beginning of a character; or no character. -/
inductive CodecStep (σ : Type) where
  | done (n : Nat) (out : Bytes) (s : σ)
  | incomplete
  | invalid

/-- A converter to UTF-8: its shift state, and what it does with the next character. -/
structure Codec where
  σ : Type
  init : σ
  step : σ → Bytes → CodecStep σ

/-- `Iconv_status`, `detail/iconv.h` 27, with the exception of `EILSEQ`. -/
inductive IconvStatus where
  | ok
  | incompleteChar
  | leftover
  | invalid
  deriving DecidableEq, Repr

/-- The result of `Iconv_desc::convert`: what is left of the input, what was written, and the shift state. -/
structure IconvOut (σ : Type) where
  status : IconvStatus
  left : Bytes
  out : Bytes
  state : σ

/-- `Iconv_desc::convert`, `detail/iconv.cc` 58-97, and the loop of `iconv(3)`: characters are converted until the input
is used up (65, 71-73), ends in the middle of a character (75-77), or the next one does not fit into the `room` bytes
left in the output (78-80); `EILSEQ` (81-85) is the status `invalid`.  The fuel is the length of the input. -/
def iconvLoop (c : Codec) : (fuel : Nat) → c.σ → (inp : Bytes) → (room : Nat) → IconvOut c.σ
  | 0, s, inp, _ => ⟨.ok, inp, [], s⟩
  | fuel + 1, s, inp, room =>
    match inp with
    | [] => ⟨.ok, [], [], s⟩
    | b :: bs =>
      match c.step s (b :: bs) with
      | .incomplete => ⟨.incompleteChar, b :: bs, [], s⟩
      | .invalid => ⟨.invalid, b :: bs, [], s⟩
      | .done n out s' =>
        if out.length ≤ room then
          let r := iconvLoop c fuel s' ((b :: bs).drop n) (room - out.length)
          { r with out := out ++ r.out }
        else ⟨.leftover, b :: bs, [], s⟩

/-- A `Utf8_input_stream`, `include/mlio/streams/utf8_input_stream.h` 84-92.  `mem` is the part of `buffer_` that was
written so far, `pos` and `fin` are `buffer_pos_` and `buffer_end_` as offsets, `rest` is `remaining_bits_`. -/
structure Utf8Stream (c : Codec) where
  inner : Stream
  isUtf8 : Bool
  mem : Bytes
  pos : Nat
  fin : Nat
  shouldFill : Bool
  rest : Bytes
  state : c.σ

/-- Storing bytes into the buffer. -/
def overwriteFrom (mem : Bytes) (at_ : Nat) (x : Bytes) : Bytes := mem.take at_ ++ x ++ mem.drop (at_ + x.length)

/-- `detail::fill_buffer`, `utf8_input_stream.cc` 39-52: the same loop as in the chunk reader. -/
def fillBuffer (s : Stream) (n : Nat) : Option (Bytes × Stream) := (fillLoop n s n).map fun r => (r.1, r.2.1)

/-- `fill_buffer` and what follows, 130-153: `none` at the end of the stream. -/
def Utf8Stream.refill {c : Codec} (u : Utf8Stream c) : Res (Option Unit) × Utf8Stream c :=
  match fillBuffer u.inner (u.fin - u.pos) with
  | none => (.err .diverges, u)
  | some (got, inner') =>
    let u' := { u with inner := inner', mem := overwriteFrom u.mem u.pos got, fin := u.pos + got.length }
    if got.length = 0 then
      if u.pos ≠ 0 then (.err .streamError, u') else (.ok none, u')
    else (.ok (some ()), { u' with pos := 0, shouldFill := false })

/-- The conversion in the loop, 155-181. -/
def Utf8Stream.transcode {c : Codec} (u : Utf8Stream c) (room : Nat) : Res Bytes × Utf8Stream c :=
  let inp := (u.mem.take u.fin).drop u.pos
  let r := iconvLoop c inp.length u.state inp room
  match r.status with
  | .invalid => (.err .streamError, u)
  | .incompleteChar =>
    (.ok r.out, { u with mem := overwriteFrom u.mem 0 r.left, pos := r.left.length, shouldFill := true, state := r.state })
  | .leftover => (.ok r.out, { u with pos := u.fin - r.left.length, state := r.state })
  | .ok => (.ok r.out, { u with pos := 0, shouldFill := true, state := r.state })

/-- One turn of the loop in `convert`, 128-182: the bytes written, or `none` if the end was reached. -/
def Utf8Stream.turn {c : Codec} (u : Utf8Stream c) (room : Nat) : Res (Option Bytes) × Utf8Stream c :=
  let go := fun (u : Utf8Stream c) =>
    match u.transcode room with
    | (.ok b, u') => (Res.ok (some b), u')
    | (.err e, u') => (.err e, u')
    | (.ub w, u') => (.ub w, u')
  if u.shouldFill then
    match u.refill with
    | (.ok (some ()), u') => go u'
    | (.ok none, u') => (.ok none, u')
    | (.err e, u') => (.err e, u')
    | (.ub w, u') => (.ub w, u')
  else go u

/-- `convert`, 122-185: until something was written. -/
def Utf8Stream.convert {c : Codec} : (fuel : Nat) → Utf8Stream c → (room : Nat) → Res Bytes × Utf8Stream c
  | 0, u, _ => (.err .diverges, u)
  | fuel + 1, u, room =>
    match u.turn room with
    | (.ok none, u') => (.ok [], u')
    | (.ok (some b), u') => if b.isEmpty then Utf8Stream.convert fuel u' room else (.ok b, u')
    | (.err e, u') => (.err e, u')
    | (.ub w, u') => (.ub w, u')

/-- `copy_from_remainder`, 197-206. -/
def Utf8Stream.copyRest {c : Codec} (u : Utf8Stream c) (n : Nat) : Res Bytes × Utf8Stream c :=
  (.ok (u.rest.take n), { u with rest := u.rest.drop n })

/-- `read`, 57-95, for a destination of `n` bytes.  Every turn but the first reads at least one byte of the inner stream,
so that the fuel is enough.  Closed streams are left out. -/
def Utf8Stream.read {c : Codec} (u : Utf8Stream c) (n : Nat) : Res Bytes × Utf8Stream c :=
  if n = 0 then (.ok [], u)
  else if u.rest.isEmpty then
    if u.isUtf8 then
      let (got, inner') := u.inner.read n
      (.ok got, { u with inner := inner' })
    else if n ≥ 4 then u.convert (u.inner.data.length + 2) n
    else
      match u.convert (u.inner.data.length + 2) 4 with
      | (.ok b, u') => if b.isEmpty then (.ok [], u') else { u' with rest := b }.copyRest n
      | (.err e, u') => (.err e, u')
      | (.ub w, u') => (.ub w, u')
  else u.copyRest n

/-- The names of encodings, `text_encoding.cc` 23-30. -/
def encUtf8 : String := "UTF-8"
/-- See `encUtf8`. -/
def encLatin1 : String := "8859_1"
/-- See `encUtf8`. -/
def encUtf16le : String := "UTF-16LE"
/-- See `encUtf8`. -/
def encUtf16be : String := "UTF-16BE"
/-- See `encUtf8`. -/
def encUtf32le : String := "UTF-32LE"
/-- See `encUtf8`. -/
def encUtf32be : String := "UTF-32BE"

/-- `infer_bom_encoding`, 252-285. -/
def inferBom (p : Bytes) : Option String :=
  if p.length ≥ 3 ∧ p.getD 0 0 = 0xEF ∧ p.getD 1 0 = 0xBB ∧ p.getD 2 0 = 0xBF then some encUtf8
  else if p.length = 4 ∧ p.getD 0 0 = 0x00 ∧ p.getD 1 0 = 0x00 ∧ p.getD 2 0 = 0xFE ∧ p.getD 3 0 = 0xFF then some encUtf32be
  else if p.length = 4 ∧ p.getD 0 0 = 0xFF ∧ p.getD 1 0 = 0xFE ∧ p.getD 2 0 = 0x00 ∧ p.getD 3 0 = 0x00 then some encUtf32le
  else if p.length ≥ 2 ∧ p.getD 0 0 = 0xFE ∧ p.getD 1 0 = 0xFF then some encUtf16be
  else if p.length ≥ 2 ∧ p.getD 0 0 = 0xFF ∧ p.getD 1 0 = 0xFE then some encUtf16le
  else none

/-- What `make_utf8_stream` returns: the stream itself, or a `Utf8_input_stream`. -/
inductive TextStream (codec : String → Codec) where
  | same (s : Stream)
  | wrapped (name : String) (u : Utf8Stream (codec name))

/-- The constructor, 107-120; the size of the buffer `cap` is 32 MiB.  That `iconv_open` fails is left out. -/
def Utf8Stream.new (c : Codec) (cap : Nat) (inner : Stream) (name : String) : Utf8Stream c :=
  ⟨inner, name == encUtf8, [], 0, if name == encUtf8 then 0 else cap, true, [], c.init⟩

/-- `set_preamble`, 208-224. -/
def Utf8Stream.setPreamble {c : Codec} (u : Utf8Stream c) (p : Bytes) : Utf8Stream c :=
  if u.isUtf8 then { u with rest := p } else { u with mem := overwriteFrom u.mem 0 p, pos := p.length }

/-- The end of `make_utf8_stream`, 330-343. -/
def wrapUtf8 (codec : String → Codec) (cap : Nat) (all : Bytes) (seekable : Bool) (s : Stream) (preamble : Bytes)
    (name : String) : TextStream codec :=
  if seekable then .wrapped name (Utf8Stream.new (codec name) cap { s with data := all } name)
  else .wrapped name ((Utf8Stream.new (codec name) cap s name).setPreamble preamble)

/-- `make_utf8_stream`, 291-344, of a stream at its beginning with contents `all`; `sched` is how short its reads are.
Seeking a stream to its beginning makes all of its contents available again. -/
def makeUtf8Stream (codec : String → Codec) (cap : Nat) (all : Bytes) (seekable : Bool) (sched : List Nat)
    (encoding : Option String) : Res (TextStream codec) :=
  match encoding with
  | some name =>
    if name == encUtf8 || name == encLatin1 then .ok (.same ⟨all, sched⟩)
    else .ok (wrapUtf8 codec cap all seekable ⟨all, sched⟩ [] name)
  | none =>
    match fillBuffer ⟨all, sched⟩ 4 with
    | none => .err .diverges
    | some (preamble, s) =>
      match inferBom preamble with
      | none =>
        if seekable then .ok (.same { s with data := all })
        else .ok (wrapUtf8 codec cap all seekable s preamble encUtf8)
      | some name => .ok (wrapUtf8 codec cap all seekable s preamble name)

/-- One read of either. -/
def TextStream.read {codec : String → Codec} : TextStream codec → Nat → Res Bytes × TextStream codec
  | .same s, n => let (b, s') := s.read n; (.ok b, .same s')
  | .wrapped name u, n => let (r, u') := u.read n; (r, .wrapped name u')

/-- Successive reads. -/
def TextStream.reads {codec : String → Codec} : TextStream codec → List Nat → List (Res Bytes)
  | _, [] => []
  | t, n :: ns => (t.read n).1 :: (t.read n).2.reads ns

end Mlio
