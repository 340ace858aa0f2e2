import Verif.Spec.Client
/-!
Vocabulary for C71: what may close a client, and what may stand in the way of a call.
-/

namespace PRpc.Spec

/-- Something happened that may close a client: an explicit close, a failed send or receive of the transport, or the last
handle being dropped. -/
def CloseCause (ls : List Label) : Prop :=
  .close ∈ ls ∨ .out_done false ∈ ls ∨ .in_recv none ∈ ls ∨ .drop_handles ∈ ls

/-- The call waits for answers, looking at keys through this many bytes. -/
def waitsThrough (cl : Call) : Option Nat :=
  match cl.phase with
  | .half k => some (keyLen k)
  | .registered k => some (keyLen k)
  | .waiting k => some (keyLen k)
  | _ => none

/-- The key length the call has read from the client. -/
def readLen (cl : Call) : Option Nat :=
  match cl.phase with
  | .kinded k => some (keyLen k)
  | _ => waitsThrough cl

/-- What one call waits for cannot be told from what another waits for: same sequence number, and keys that agree at the
shorter of the lengths they look at. -/
structure SameWait (cfg : Cfg) (a : Call) (ea : Bool) (la : Nat) (b : Call) (eb : Bool) (lb : Nat) : Prop where
  seq : seqVal a.rqst.header.seq_no = seqVal b.rqst.header.seq_no
  key : short (min la lb) (wantKey cfg a ea) = short (min la lb) (wantKey cfg b eb)

end PRpc.Spec
