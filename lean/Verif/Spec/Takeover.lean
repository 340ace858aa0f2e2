import Verif.Spec.Nusb
import Verif.Model.EUsb
/-! Vocabulary for C78: a new host process on a device that stayed connected. -/

namespace PRpc.Spec

/-- The messages `ms`, of which the first, if there is one, was preceded by `part`. -/
def behind (part : Bytes) : List Bytes → List Bytes
  | [] => []
  | m :: ms => (part ++ m) :: ms

/-- What a device receiver with a buffer of `B` bytes makes of a frame: it returns those that are shorter. -/
def rxResult (B : Nat) (d : Bytes) : RxRes := if d.length < B then .Ok d else .ReceivedMessageTooLarge

end PRpc.Spec
