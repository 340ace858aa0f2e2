import Verif.Spec.Nusb
/-! How a host controller answers IN transfers of a given length. -/

namespace PRpc.Spec

/-- A completed IN transfer: its data, or an overflow (the device sent a packet that did not fit what was left). -/
inductive InRes where
  | data (d : Bytes)
  | overflow
  deriving DecidableEq, Repr

/-- IN transfers of `size` bytes, asked for one after the other until one overflows; `cur` is what the current one
holds.  A transfer ends with a packet shorter than 64 bytes or when it is exactly full. -/
def inResults (size : Nat) (cur : Bytes) : List Bytes → List InRes
  | [] => []
  | p :: ps =>
    if (cur ++ p).length > size then [.overflow]
    else if p.length < 64 ∨ (cur ++ p).length = size then .data (cur ++ p) :: inResults size [] ps
    else inResults size (cur ++ p) ps

/-- The first frame longer than `size` overflows; those before it arrive. -/
def cutAt (size : Nat) : List Bytes → List InRes
  | [] => []
  | d :: ds => if d.length ≤ size then .data d :: cutAt size ds else [.overflow]

end PRpc.Spec
