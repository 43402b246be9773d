import Verif.Spec.Sdk

/-!
# The AWS SDK and clients of S3

Models `src/mlio/init_aws.cc` 25-55 and `src/mlio/s3_client.cc` 36-55 and 185-211, built with `MLIO_BUILD_S3`.

Simplified: a client is its keys, its region and its scheme; all other settings are those of the SDK.  `AwsMachine` is what the providers of
the SDK find, which does not change.
-/

namespace Mlio
open Spec

/-- The state of the process: `aws_initialized` (`init_aws.cc` 28), `chain_initialized` (`s3_client.cc` 36), the calls of `Aws::InitAPI` and
`Aws::ShutdownAPI` so far, oldest first. -/
structure SdkState where
  initialized : Bool := false
  chain : Bool := false
  native : List NativeCall := []
  deriving DecidableEq, Repr

/-- What a call gives. -/
inductive SdkOut where
  | done
  /-- `logger::warn` -/
  | warned
  | client (c : Client)
  deriving DecidableEq, Repr

/-- `initialize_aws_sdk`, `init_aws.cc` 34-45. -/
def initializeAws (s : SdkState) : SdkOut × SdkState :=
  if s.initialized then (.warned, s) else (.done, { s with native := s.native ++ [.start], initialized := true })

/-- `deallocate_aws_sdk`, `init_aws.cc` 47-54. -/
def deallocateAws (s : SdkState) : SdkOut × SdkState :=
  (.done, { s with native := if s.initialized then s.native ++ [.stop] else s.native, initialized := false })

/-- `get_default_aws_credentials`, `s3_client.cc` 38-55: `chain` is a variable of the function that `std::call_once` sets in the first call only;
54 goes through it in every call. -/
def defaultKeys (m : AwsMachine) (s : SdkState) : Res Keys × SdkState :=
  if s.chain then (.ub "null pointer", s) else (.ok m.keys, { s with chain := true })

/-- `make_s3_client`, `s3_client.cc` 185-211. -/
def makeClient (m : AwsMachine) (w : ClientWish) (s : SdkState) : Res SdkOut × SdkState :=
  let keys := if w.id.isEmpty && w.secret.isEmpty then defaultKeys m s else (.ok ⟨w.id, w.secret, w.token⟩, s)
  match keys with
  | (.ok ks, s') =>
    let config := if w.profile.isEmpty then m.region else m.profileRegion w.profile
    let region := if w.region.isEmpty then config else w.region
    (.ok (.client ⟨ks, region, w.https⟩), s')
  | (.err e, s') => (.err e, s')
  | (.ub u, s') => (.ub u, s')

/-- One call. -/
def sdkCall (m : AwsMachine) (s : SdkState) : SdkCall → Res SdkOut × SdkState
  | .setUp => (.ok (initializeAws s).1, (initializeAws s).2)
  | .tearDown => (.ok (deallocateAws s).1, (deallocateAws s).2)
  | .makeClient w => makeClient m w s

/-- Calls one after the other; the first undefined behaviour ends the process. -/
def sdkRun (m : AwsMachine) : SdkState → List SdkCall → Res (List SdkOut) × SdkState
  | s, [] => (.ok [], s)
  | s, k :: ks =>
    match sdkCall m s k with
    | (.ok o, s') =>
      match sdkRun m s' ks with
      | (.ok os, s'') => (.ok (o :: os), s'')
      | (.err e, s'') => (.err e, s'')
      | (.ub w, s'') => (.ub w, s'')
    | (.err e, s') => (.err e, s')
    | (.ub w, s') => (.ub w, s')

/-! ## Threads -/

/-- What a thread in `initialize_aws_sdk` does next: read the flag (36), call `Aws::InitAPI` (42), set the flag (44). -/
inductive InitPc where
  | check | native | set | ret
  deriving DecidableEq, Repr

/-- A step of one of the threads, `init_aws.cc` 34-45, without any lock. -/
def initStep (pc : InitPc) (s : SdkState) : InitPc × SdkState :=
  match pc with
  | .check => (if s.initialized then .ret else .native, s)
  | .native => (.set, { s with native := s.native ++ [.start] })
  | .set => (.ret, { s with initialized := true })
  | .ret => (.ret, s)

/-- A schedule of two threads; `false` is a step of the first one. -/
def initThreads : InitPc → InitPc → SdkState → List Bool → InitPc × InitPc × SdkState
  | a, b, s, [] => (a, b, s)
  | a, b, s, false :: l => initThreads (initStep a s).1 b (initStep a s).2 l
  | a, b, s, true :: l => initThreads a (initStep b s).1 (initStep b s).2 l

end Mlio
