import Verif.Model.Nusb
/-! What the USB cable carries and what the host receiver should make of its transfers. -/

namespace PRpc.Spec

/-- Errors worth a recovery. -/
def Stalled (e : TransferError) : Prop := e = .Stall ∨ e = .Unknown

/-- `Tolerated k cs ds k'`: the completions `cs` are good ones, carrying `ds`, and recoveries (a stalled transfer
together with the three that were in flight with it), never more than ten in a row, where `k` had happened in a row
before and `k'` have at the end. -/
inductive Tolerated : Nat → List Completion → List Bytes → Nat → Prop where
  | nil {k} : Tolerated k [] [] k
  | good {k d cs ds k'} : Tolerated 0 cs ds k' → Tolerated k (⟨none, d⟩ :: cs) (d :: ds) k'
  | recovery {k e x a b c cs ds k'} : Stalled e → k < 10 → Tolerated (k + 1) cs ds k' →
      Tolerated k (⟨some e, x⟩ :: a :: b :: c :: cs) ds k'

/-- The data of the transfers that completed well. -/
def goodData (cs : List Completion) : List Bytes :=
  cs.filterMap fun c => if c.status = none then some c.data else none

/-- The packets of one OUT transfer on an endpoint with packets of `p` bytes: full ones and the remainder; an empty
transfer is one empty packet, and nothing is added to a transfer that fills its last packet. -/
def bulk (p : Nat) (d : Bytes) : List Bytes :=
  if _h : d.length ≤ p ∨ p = 0 then [d] else d.take p :: bulk p (d.drop p)
termination_by d.length
decreasing_by simp only [List.length_drop]; omega

/-- The device joins packets into frames; a packet shorter than `p` ends one.  Result: the complete frames, and the
bytes of the one in progress. -/
def framesOf (p : Nat) (cur : Bytes) : List Bytes → List Bytes × Bytes
  | [] => ([], cur)
  | x :: xs =>
    if x.length < p then ((cur ++ x) :: (framesOf p [] xs).1, (framesOf p [] xs).2)
    else framesOf p (cur ++ x) xs

end PRpc.Spec

namespace PRpc.Spec

/-- IN transfers of `size` bytes as the host controller completes them from 64-byte packets: a transfer is complete when
a short packet comes or when it is full (`size` a multiple of 64).  Result: the data of the complete transfers, and what
the current one holds. -/
def inTransfers (size : Nat) (cur : Bytes) : List Bytes → List Bytes × Bytes
  | [] => ([], cur)
  | p :: ps =>
    if p.length < 64 ∨ (cur ++ p).length = size then
      ((cur ++ p) :: (inTransfers size [] ps).1, (inTransfers size [] ps).2)
    else inTransfers size (cur ++ p) ps

/-- The full blocks of `size` bytes of `d`. -/
def blocks (size : Nat) (d : Bytes) : List Bytes :=
  if _h : d.length < size ∨ size = 0 then [] else d.take size :: blocks size (d.drop size)
termination_by d.length
decreasing_by simp only [List.length_drop]; omega

/-- What is left of `d` after its full blocks. -/
def leftover (size : Nat) (d : Bytes) : Bytes := d.drop (d.length - d.length % size)

end PRpc.Spec
