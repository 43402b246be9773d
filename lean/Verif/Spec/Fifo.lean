import Verif.Model.Fifo

/-!
# Reading a pipe
-/

namespace Mlio.Spec

/-- A stream has been opened on a new FIFO and read: `bs` is what the calls of `read` have returned, one for each of the sizes `ns`, and `f` is the FIFO afterwards; `es` is what has yet to happen. -/
def FifoSession (fd : Nat) (timeout : Int) (ns : List Nat) (bs : List Bytes) (f : Fifo) (es : List FifoEv) : Prop :=
  ∃ all f0 es0 t, Fifo.init.open fd timeout all = (.ok (), f0, es0, t) ∧
    f0.reads fd timeout ns es0 = (bs, .ok (), f, es)

end Mlio.Spec
