import Verif.Basic

/-!
# What a client of the object storage service should be given
-/

namespace Mlio.Spec

/-- Keys to sign requests with. -/
structure Keys where
  id : Bytes
  secret : Bytes
  token : Bytes
  deriving DecidableEq, Repr

/-- What a user asks for; what is not asked for is empty. -/
structure ClientWish where
  id : Bytes := []
  secret : Bytes := []
  token : Bytes := []
  profile : Bytes := []
  region : Bytes := []
  https : Bool := true
  deriving DecidableEq, Repr

/-- What the machine offers: default keys, a default region, the regions of the profiles. -/
structure AwsMachine where
  keys : Keys
  region : Bytes
  profileRegion : Bytes → Bytes

/-- A client. -/
structure Client where
  keys : Keys
  region : Bytes
  https : Bool
  deriving DecidableEq, Repr

/-- The user has not said which keys to use. -/
def NoKeys (w : ClientWish) : Prop := w.id = [] ∧ w.secret = []

instance (w : ClientWish) : Decidable (NoKeys w) := by unfold NoKeys; exact inferInstance

/-- The keys that were asked for, or those of the machine. -/
def wantedKeys (m : AwsMachine) (w : ClientWish) : Keys := if NoKeys w then m.keys else ⟨w.id, w.secret, w.token⟩

/-- The region that was asked for, or that of the profile, or the default one. -/
def wantedRegion (m : AwsMachine) (w : ClientWish) : Bytes :=
  if w.region ≠ [] then w.region else if w.profile ≠ [] then m.profileRegion w.profile else m.region

/-- The client that was asked for. -/
def wantedClient (m : AwsMachine) (w : ClientWish) : Client := ⟨wantedKeys m w, wantedRegion m w, w.https⟩

/-- Calls of the native library. -/
inductive NativeCall where
  | start | stop
  deriving DecidableEq, Repr

/-- The library is started, stopped, started, … -/
def Alternating (l : List NativeCall) : Prop := ∀ i c, l[i]? = some c → c = if i % 2 = 0 then .start else .stop

/-- What a user calls. -/
inductive SdkCall where
  | setUp
  | tearDown
  | makeClient (w : ClientWish)
  deriving DecidableEq, Repr

end Mlio.Spec
