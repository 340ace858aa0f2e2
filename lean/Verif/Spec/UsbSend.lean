import Verif.Model.EUsb
/-! Vocabulary for C68: which packet writes a USB send makes, and which of them goes wrong first. -/

namespace PRpc.Spec

/-- The packet writes a send of `len` bytes makes if all go well: one to end a frame that was cut before, one for every full
packet, and one more for the short packet (possibly empty) that ends the transfer.  Nothing is written for an empty frame. -/
def writesFor (cutBefore : Bool) (len : Nat) : Nat :=
  if len = 0 then 0 else (if cutBefore then 1 else 0) + len / 64 + 1

/-- Write number `i` of a send is the first that is not completed. -/
def FirstBad (o : Nat → WriteOut) (n i : Nat) : Prop := i < n ∧ o i ≠ .ok ∧ ∀ j < i, o j = .ok

end PRpc.Spec
