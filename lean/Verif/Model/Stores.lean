import Verif.Model.Memory

/-!
# Data stores: natural ordering, listing, compression inference, S3 URIs and the S3 stream

`third-party/natsort/strnatcmp.c`, `src/mlio/data_stores/file_list.cc`, `src/mlio/data_stores/s3_object.cc`,
`src/mlio/data_stores/detail/util.cc`, `src/mlio/detail/s3_utils.cc`, `src/mlio/detail/path.cc`,
`src/mlio/s3_client.cc`, `src/mlio/streams/s3_input_stream.cc`.
-/

namespace Mlio

/-! ## `strnatcmp` -/

/-- `nat_isdigit`, `strnatcmp.c` 41-45. -/
def natDigit (c : UInt8) : Bool := 48 ≤ c.toNat && c.toNat ≤ 57

/-- `nat_isspace`, `strnatcmp.c` 48-52, in the "C" locale. -/
def natSpace (c : UInt8) : Bool := c.toNat == 32 || (9 ≤ c.toNat && c.toNat ≤ 13)

/-- The value of a `char`, which is signed on some platforms. -/
def charVal (signed : Bool) (c : UInt8) : Int :=
  if signed && 128 ≤ c.toNat then (c.toNat : Int) - 256 else c.toNat

/-- The characters of a C string: up to the first NUL (`std::string::c_str` as an argument of `strnatcmp`). -/
def cstr (s : Bytes) : Bytes := s.takeWhile (· ≠ 0)

/-- `compare_right`, `strnatcmp.c` 62-89.  The end of the list is the terminating NUL.  (The test in 83 is never
reached with a digit.) -/
def compareRight : Bytes → Bytes → (bias : Int) → Int
  | a :: as, b :: bs, bias =>
    if !natDigit a && !natDigit b then bias
    else if !natDigit a then -1
    else if !natDigit b then 1
    else if a < b then compareRight as bs (if bias = 0 then -1 else bias)
    else if a > b then compareRight as bs (if bias = 0 then 1 else bias)
    else compareRight as bs bias
  | a :: _, [], bias => if natDigit a then 1 else bias
  | [], b :: _, bias => if natDigit b then -1 else bias
  | [], [], bias => bias

/-- `compare_left`, `strnatcmp.c` 92-111. -/
def compareLeft : Bytes → Bytes → Int
  | a :: as, b :: bs =>
    if !natDigit a && !natDigit b then 0
    else if !natDigit a then -1
    else if !natDigit b then 1
    else if a < b then -1
    else if a > b then 1
    else compareLeft as bs
  | a :: _, [] => if natDigit a then 1 else 0
  | [], b :: _ => if natDigit b then -1 else 0
  | [], [] => 0

/-- The comparison of two runs of digits, `strnatcmp.c` 133-143: `0` if the heads are not both digits. -/
def compareRuns (a b : Bytes) : Int :=
  match a, b with
  | ca :: _, cb :: _ =>
    if natDigit ca && natDigit cb then
      if ca = 48 || cb = 48 then compareLeft a b else compareRight a b 0
    else 0
  | _, _ => 0

/-- The loop of `strnatcmp0` with `fold_case` 0, `strnatcmp.c` 122-163.  Each round but the last advances by a
character in both strings, so that as many rounds as the first string has characters, and one more, are enough. -/
def natLoop (signed : Bool) : (fuel : Nat) → Bytes → Bytes → Int
  | 0, _, _ => 0
  | fuel + 1, a, b =>
    let a := a.dropWhile natSpace
    let b := b.dropWhile natSpace
    if compareRuns a b ≠ 0 then compareRuns a b
    else
      match a, b with
      | [], [] => 0
      | [], cb :: _ => if 0 < charVal signed cb then -1 else 1
      | ca :: _, [] => if charVal signed ca < 0 then -1 else 1
      | ca :: as, cb :: bs =>
        if charVal signed ca < charVal signed cb then -1
        else if charVal signed ca > charVal signed cb then 1
        else natLoop signed fuel as bs

/-- `strnatcmp`, `strnatcmp.c` 167-170. -/
def strnatcmp (signed : Bool) (a b : Bytes) : Int := natLoop signed ((cstr a).length + 1) (cstr a) (cstr b)

/-- The comparison passed to `std::sort`, `s3_object.cc` 133-135. -/
def natLess (signed : Bool) (a b : Bytes) : Bool := strnatcmp signed a b < 0

/-! ## Listing -/

/-- `S3_client::list_objects`, `s3_client.cc` 107-136: `server` answers a request with a continuation token (or without)
by the keys of a page and, if it is truncated, the next token.  The result is the list of URIs passed to the callback;
errors of the service are left out.  Listing goes on as long as pages are truncated. -/
def listObjects {T : Type} (server : Option T → List Bytes × Option T) (base : Bytes) :
    (fuel : Nat) → Option T → Res (List Bytes)
  | 0, _ => .err .diverges
  | fuel + 1, tok =>
    match server tok with
    | (keys, none) => .ok (keys.map (base ++ ·))
    | (keys, some t) =>
      match listObjects server base fuel (some t) with
      | .ok us => .ok (keys.map (base ++ ·) ++ us)
      | .err e => .err e
      | .ub w => .ub w

/-- What is done with each URI, `s3_object.cc` 97-117, and with each file, `file_list.cc` 115-132: `pattern` is
`fnmatch` (`none`: it fails), absent if the pattern is empty; `predicate` is absent if it is null. -/
def wanted (pattern : Option (Bytes → Option Bool)) (predicate : Option (Bytes → Bool)) (uri : Bytes) : Res Bool :=
  let pred := match predicate with
    | none => true
    | some p => p uri
  match pattern with
  | none => .ok pred
  | some f =>
    match f uri with
    | none => .err .invalidArgument
    | some false => .ok false
    | some true => .ok pred

/-- The URIs that are kept, in order. -/
def keepWanted (pattern : Option (Bytes → Option Bool)) (predicate : Option (Bytes → Bool)) :
    List Bytes → Res (List Bytes)
  | [] => .ok []
  | u :: us =>
    match wanted pattern predicate u with
    | .err e => .err e
    | .ub w => .ub w
    | .ok keep =>
      match keepWanted pattern predicate us with
      | .ok r => .ok (if keep then u :: r else r)
      | .err e => .err e
      | .ub w => .ub w

/-- An entry of a file hierarchy traversal (`FTSENT`): an error (`FTS_ERR`, `FTS_DNR`, `FTS_NS`), a regular or block
file, or anything else (directories, other kinds of files). -/
inductive FtsEntry where
  | error
  | file (path : Bytes)
  | other (path : Bytes)
  deriving DecidableEq, Repr

/-- `list_files`, `file_list.cc` 89-144, for the entries that `fts_read` delivers. -/
def listFiles (pattern : Option (Bytes → Option Bool)) (predicate : Option (Bytes → Bool)) :
    List FtsEntry → Res (List Bytes)
  | [] => .ok []
  | .error :: _ => .err .systemError
  | .other _ :: es => listFiles pattern predicate es
  | .file p :: es =>
    match wanted pattern predicate p with
    | .err e => .err e
    | .ub w => .ub w
    | .ok keep =>
      match listFiles pattern predicate es with
      | .ok r => .ok (if keep then p :: r else r)
      | .err e => .err e
      | .ub w => .ub w

/-! ## Paths and URIs -/

/-- `Compression`, `include/mlio/data_stores/compression.h`. -/
inductive Compression where
  | none
  | infer
  | gzip
  | bzip2
  | zip
  deriving DecidableEq, Repr

/-- `infer_compression`, `util.cc` 24-46. -/
def inferCompression (path : Bytes) : Compression :=
  let len := path.length
  if len > 3 && path.getD (len - 3) 0 == 46 then
    if path.getD (len - 2) 0 == 103 && path.getD (len - 1) 0 == 122 then .gzip else .none
  else if len > 4 && path.getD (len - 4) 0 == 46 then
    if path.getD (len - 3) 0 == 98 && path.getD (len - 2) 0 == 122 && path.getD (len - 1) 0 == 50 then .bzip2
    else if path.getD (len - 3) 0 == 122 && path.getD (len - 2) 0 == 105 && path.getD (len - 1) 0 == 112 then .zip
    else .none
  else .none

/-- `"s3://"` -/
def s3Scheme : Bytes := [115, 51, 58, 47, 47]

/-- `split_s3_uri_to_bucket_and_prefix`, `s3_utils.cc` 24-50. -/
def splitPrefix (uri : Bytes) : Res (Bytes × Bytes) :=
  if uri.isEmpty then .err .invalidArgument
  else if uri.length < 5 || uri.take 5 != s3Scheme then .err .invalidArgument
  else
    let uri := uri.drop 5
    if uri.isEmpty then .err .invalidArgument
    else
      match uri.findIdx? (· == 47) with
      | none => .ok (uri, [])
      | some 0 => .err .invalidArgument
      | some pos => .ok (uri.take pos, uri.drop (pos + 1))

/-- `split_s3_uri_to_bucket_and_key`, `s3_utils.cc` 52-61. -/
def splitKeyUri (uri : Bytes) : Res (Bytes × Bytes) :=
  match splitPrefix uri with
  | .err e => .err e
  | .ub w => .ub w
  | .ok (b, k) => if k.isEmpty then .err .invalidArgument else .ok (b, k)

/-- `validate_file_path`, `path.cc` 24-33. -/
def validateFilePath (path : Bytes) : Res Unit :=
  match path.getLast? with
  | none => .err .invalidArgument
  | some c => if c == 47 || c == 92 then .err .invalidArgument else .ok ()

/-- `list_s3_objects`, `s3_object.cc` 123-147: the URIs of the objects, for every URI given to it.  `servers` is the
service as seen for a bucket and a prefix, `sort` is `std::sort` with the natural ordering. -/
def listS3 {T : Type} (server : Bytes → Bytes → Option T → List Bytes × Option T) (fuel : Nat)
    (pattern : Option (Bytes → Option Bool)) (predicate : Option (Bytes → Bool)) (sort : List Bytes → List Bytes)
    (uris : List Bytes) : Res (List Bytes) :=
  match go uris with
  | .ok us => .ok (sort us)
  | .err e => .err e
  | .ub w => .ub w
where
  /-- The loop in 125-127, with 88-118. -/
  go : List Bytes → Res (List Bytes)
    | [] => .ok []
    | u :: us =>
      match splitPrefix u with
      | .err e => .err e
      | .ub w => .ub w
      | .ok (b, p) =>
        match listObjects (server b p) (s3Scheme ++ b ++ [47]) fuel none with
        | .err e => .err e
        | .ub w => .ub w
        | .ok objs =>
          match keepWanted pattern predicate objs with
          | .err e => .err e
          | .ub w => .ub w
          | .ok kept =>
            match go us with
            | .ok r => .ok (kept ++ r)
            | .err e => .err e
            | .ub w => .ub w

/-! ## The S3 stream -/

/-- `S3_input_stream`, `s3_input_stream.h` 38-89. -/
structure S3Stream where
  closed : Bool
  size : Nat
  position : Nat
  deriving DecidableEq, Repr

/-- `make`, `s3_input_stream.cc` 86-99, for an object with the contents `x`, which does not change while the stream is
in use. -/
def S3Stream.new (x : Bytes) : S3Stream := ⟨false, x.length, 0⟩

/-- `S3_client::read_object`, `s3_client.cc` 138-164: the service answers the range `offset` to `offset + n`, both
included, with the bytes that exist (and fails if there are none); at most `n` bytes of them are read. -/
def readObject (x : Bytes) (offset n : Nat) : Res Bytes :=
  if x.length ≤ offset then .err .systemError else .ok (((x.drop offset).take (n + 1)).take n)

/-- `read`, `s3_input_stream.cc` 28-43. -/
def S3Stream.readInto (x : Bytes) (s : S3Stream) (n : Nat) : Res Bytes × S3Stream :=
  if s.closed then (.err .streamError, s)
  else if n = 0 ∨ s.position = s.size then (.ok [], s)
  else
    match readObject x s.position (min (s.size - s.position) n) with
    | .ok b => (.ok b, { s with position := s.position + b.length })
    | .err e => (.err e, s)
    | .ub w => (.ub w, s)

/-- `seek`, `s3_input_stream.cc` 45-54. -/
def S3Stream.seek (s : S3Stream) (p : Nat) : Res Unit × S3Stream :=
  if s.closed then (.err .streamError, s)
  else if p > s.size then (.err .systemError, s)
  else (.ok (), { s with position := p })

/-- One call; `size` and `position` (`s3_input_stream.h` 50-58) do not look at `closed_`; `read(size)` is that of
`Input_stream_base`. -/
def S3Stream.call (x : Bytes) (s : S3Stream) : StreamCall → StreamOut × S3Stream
  | .readInto n => (.bytes (s.readInto x n).1, (s.readInto x n).2)
  | .read n => (.bytes (s.readInto x n).1, (s.readInto x n).2)
  | .seek p => (.unit (s.seek p).1, (s.seek p).2)
  | .size => (.num (.ok s.size), s)
  | .position => (.num (.ok s.position), s)
  | .close => (.unit (.ok ()), { s with closed := true })

/-- A sequence of calls. -/
def S3Stream.calls (x : Bytes) : S3Stream → List StreamCall → List StreamOut
  | _, [] => []
  | s, k :: ks => (s.call x k).1 :: S3Stream.calls x (s.call x k).2 ks

end Mlio
