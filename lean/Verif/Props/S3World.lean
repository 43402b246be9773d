import Verif.Proofs.S3World
import Verif.Props.Stores

/-!
# C93: reading an S3 object that changes, over a connection that fails
-/

namespace Mlio
open Spec

/-- **C93**, partial: a stream that was opened while the object had the contents `x` behaves as a cursor over `x` from then on, whatever else
happens in the service: a read gives the bytes at the position, all that were asked for and exist; if its request fails, the user is told why and the
position is the one it was.

Partial: the version that is read must be named or the object left alone, see `C93_replaced_violated`; a version that is named must not be removed
for good, see `C93_gone`. -/
theorem C93_read_partial (s : Service) (uri b k version x : Bytes) (huri : splitKeyUri uri = .ok (b, k))
    (hx : s.find (b, k) version = some x) :
    ∃ t, ObjStream.open s uri version none = .ok (.ok t) ∧
      ∀ es : List S3Event, (∀ d, S3Event.change d ∈ es → d.name ≠ (b, k) ∨ (version ≠ [] ∧ d.version ≠ version)) →
        ObjStream.run s t es = faultyCalls x 0 false (callsOf es) := by
  refine ⟨ObjStream.at (b, k) version x.length 0 false, ?_, fun es hes => run_found (b, k) version x es s 0 false hx (Nat.zero_le _) hes⟩
  simp only [ObjStream.open, huri, clientSize, s3Request, Service.head, hx, ObjStream.at]

/-- Two versions of `s3://b/k`; the older one is read, with a fault, while a third is stored and the object is deleted. -/
example : let s : Service := fun o => if o = ([98], [107]) then [([50], some [7, 8]), ([49], some [1, 2, 3])] else []
    s.find ([98], [107]) [49] = some [1, 2, 3] ∧ splitKeyUri [115, 51, 58, 47, 47, 98, 47, 107] = .ok ([98], [107]) ∧
    faultyCalls [1, 2, 3] 0 false (callsOf [.call (.read 2) none, .change (.put ([98], [107]) [51] [9]), .call (.read 2) (some .requestTimeout),
      .change (.delete ([98], [107]) [52]), .call (.read 2) none, .call (.read 2) none]) =
      [.bytes [1, 2], .fails .timedOut, .bytes [3], .bytes []] := by decide +kernel

/-- **C93**: reading can be resumed after faults.  If the user only reads, the bytes of the reads that succeed, put together, are the beginning of
the contents, nothing is left out or repeated; and once a read of at least one byte gives none they are all of the contents. -/
theorem C93_resumed_partial (s : Service) (uri b k version x : Bytes) (huri : splitKeyUri uri = .ok (b, k))
    (hx : s.find (b, k) version = some x) (t : ObjStream) (ht : ObjStream.open s uri version none = .ok (.ok t))
    (es : List S3Event) (hes : ∀ d, S3Event.change d ∈ es → d.name ≠ (b, k) ∨ (version ≠ [] ∧ d.version ≠ version))
    (hreads : ∀ c ∈ callsOf es, ∃ n, c.1 = .readInto n ∨ c.1 = .read n) :
    bytesRead (ObjStream.run s t es) <+: x ∧
    ∀ (i n : Nat), (callsOf es)[i]?.map (·.1) = some (.readInto n) ∨ (callsOf es)[i]?.map (·.1) = some (.read n) → n ≠ 0 →
      (ObjStream.run s t es)[i]? = some (.bytes []) → bytesRead (ObjStream.run s t es) = x := by
  obtain ⟨t', ht', hrun⟩ := C93_read_partial s uri b k version x huri hx
  rw [ht] at ht'
  simp only [Res.ok.injEq, Except.ok.injEq] at ht'
  subst ht'
  rw [hrun es hes]
  obtain ⟨q, _, h2, h3, h4⟩ := faultyCalls_reads x (callsOf es) 0 (Nat.zero_le _) hreads
  simp only [List.drop_zero, Nat.sub_zero] at h3
  rw [h3]
  refine ⟨List.take_prefix _ _, fun i n hi hn ho => ?_⟩
  rw [h4 i n hi hn ho, List.take_length]

example : ∃ t, ObjStream.open (fun _ => [([49], some [1, 2, 3])]) [115, 51, 58, 47, 47, 98, 47, 107] [] none = .ok (.ok t) ∧
    bytesRead (ObjStream.run (fun _ => [([49], some [1, 2, 3])]) t
      [.call (.read 2) none, .call (.read 2) (some .other), .call (.readInto 2) none, .call (.read 2) none]) = [1, 2, 3] :=
  ⟨_, rfl, by decide +kernel⟩

/-- **C93**: if an object cannot be opened, because it does not exist or because of the connection, the user is told why. -/
theorem C93_open_fails (s : Service) (uri b k version : Bytes) (huri : splitKeyUri uri = .ok (b, k)) :
    (∀ e, ObjStream.open s uri version (some e) = .ok (.error (toldAs e))) ∧
    (s.find (b, k) version = none → ObjStream.open s uri version none = .ok (.error .noSuchFile)) := by
  constructor
  · intro e
    simp only [ObjStream.open, huri, clientSize, s3Request, s3Code_told]
  · intro h
    simp only [ObjStream.open, huri, clientSize, s3Request, Service.head, h, s3Code]

example : ObjStream.open (fun _ => []) [115, 51, 58, 47, 47, 98, 47, 107] [] none = .ok (.error .noSuchFile) ∧
    ObjStream.open (fun _ => []) [115, 51, 58, 47, 47, 98, 47, 107] [] (some .accessDenied) = .ok (.error .permissionDenied) := ⟨rfl, rfl⟩

/-- **C93**: if the version that is read is removed, or the object has become so short that nothing is left at the position, then the read
fails; it does not look like the end of the object.  The stream stays as it is. -/
theorem C93_gone (s : Service) (t : ObjStream) (n : Nat) (hn : n ≠ 0) (hc : t.st.closed = false) (hp : t.st.position < t.st.size) :
    (s.find t.name t.version = none → t.read s n none = (.fails .noSuchFile, t)) ∧
    (∀ y, s.find t.name t.version = some y → y.length ≤ t.st.position → t.read s n none = (.fails .ioError, t)) := by
  have hne : ¬ (n = 0 ∨ t.st.position = t.st.size) := by omega
  constructor
  · intro h
    unfold ObjStream.read clientRead s3Request Service.get
    simp only [hc, Bool.false_eq_true, if_false, if_neg hne, h, s3Code]
  · intro y h hy
    unfold ObjStream.read clientRead s3Request Service.get
    simp only [hc, Bool.false_eq_true, if_false, if_neg hne, h, if_pos hy, s3Code]

example : (ObjStream.mk ([98], [107]) [] ⟨false, 3, 2⟩).read (fun _ => []) 1 none = (.fails .noSuchFile, ⟨([98], [107]), [], ⟨false, 3, 2⟩⟩) :=
  ((C93_gone (fun _ => []) ⟨([98], [107]), [], ⟨false, 3, 2⟩⟩ 1 (by decide) rfl (by decide)).1 rfl)

/-- **C93 is violated**: without a version, when an object is replaced by one that is not shorter while it is read, no call fails: what is read is the
beginning of the old contents followed by a later part of the new ones, cut at the old size.  That is so for all contents and wherever the reader is. -/
theorem C93_replaced_violated (s : Service) (uri b k x y v : Bytes) (huri : splitKeyUri uri = .ok (b, k)) (hx : s.find (b, k) [] = some x)
    (j : Nat) (hj : j < x.length) (hj0 : j ≠ 0) (hy : x.length ≤ y.length) :
    ∃ t, ObjStream.open s uri [] none = .ok (.ok t) ∧
      ObjStream.run s t [.call (.read j) none, .change (.put (b, k) v y), .call (.read x.length) none, .call (.read 1) none] =
        [.bytes (x.take j), .bytes ((y.drop j).take (x.length - j)), .bytes []] := by
  refine ⟨ObjStream.at (b, k) [] x.length 0 false, ?_, ?_⟩
  · simp only [ObjStream.open, huri, clientSize, s3Request, Service.head, hx, ObjStream.at]
  · have h1 := read_found s (b, k) [] x hx 0 j (Nat.zero_le _) none
    have hf1 : faultyRead x 0 j none = (.bytes (x.take j), j) := by
      unfold faultyRead; rw [if_neg (by omega)]
      simp only [List.drop_zero, Nat.zero_add]; rw [Nat.min_eq_left (by omega)]
    rw [hf1] at h1
    have hy' : (s.apply (.put (b, k) v y)).find (b, k) [] = some y := by
      unfold Service.find Service.apply S3Change.name
      simp only [if_true]
    have h2 : (ObjStream.at (b, k) [] x.length j false).read (s.apply (.put (b, k) v y)) x.length none =
        (.bytes ((y.drop j).take (x.length - j)), ObjStream.at (b, k) [] x.length x.length false) := by
      unfold ObjStream.read ObjStream.at
      simp only [Bool.false_eq_true, if_false]
      rw [if_neg (by omega), clientRead_found _ (b, k) [] y hy' j _ (by omega) none]
      simp only
      rw [Nat.min_eq_left (by omega)]
      have : ((y.drop j).take (x.length - j)).length = x.length - j := by simp; omega
      rw [this, show j + (x.length - j) = x.length from by omega]
    have h3 : (ObjStream.at (b, k) [] x.length x.length false).read (s.apply (.put (b, k) v y)) 1 none =
        (.bytes [], ObjStream.at (b, k) [] x.length x.length false) := by
      unfold ObjStream.read ObjStream.at
      simp
    simp only [ObjStream.run, ObjStream.call, h1, h2, h3]

/-- Neither the old nor the new contents. -/
example : ∃ t, ObjStream.open (fun _ => [([49], some [1, 1, 1])]) [115, 51, 58, 47, 47, 98, 47, 107] [] none = .ok (.ok t) ∧
    ObjStream.run (fun _ => [([49], some [1, 1, 1])]) t
      [.call (.read 1) none, .change (.put ([98], [107]) [50] [2, 2, 2, 2]), .call (.read 3) none, .call (.read 1) none] =
      [.bytes [1], .bytes [2, 2], .bytes []] := ⟨_, rfl, by decide +kernel⟩

end Mlio
