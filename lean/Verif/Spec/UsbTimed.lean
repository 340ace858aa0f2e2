import Verif.Model.UsbTimed
/-! Vocabulary for C73: how long a send may take, and how long the host takes for its packets. -/

namespace PRpc.Spec

/-- The allowance in force, in milliseconds for each packet, after these operations: the last value set, but at least 1 and at
most 60000; `a` if none was set. -/
def allowance (a : Nat) : List TimedOp → Nat
  | [] => a
  | .set t :: ops => allowance (if t < 1 then 1 else if 60000 < t then 60000 else t) ops
  | .send _ _ :: ops => allowance a ops

/-- Whether the frame sent last, of these operations with their results, was not sent whole; `b` if none was sent.  (A send of
nothing sends no frame.) -/
def lastCut (b : Bool) : List (TimedOp × Option (TxRes × Nat)) → Bool
  | [] => b
  | (.send out _, some (r, _)) :: l => lastCut (if out = [] then b else (r != .Ok)) l
  | _ :: l => lastCut b l

/-- The packets `len` bytes are cut into. -/
def dataPackets (len : Nat) : Nat := len / 64 + if len % 64 = 0 then 0 else 1

/-- All packets a send has to write: one to end a frame that was cut before, the data packets, and one to end the frame if its
last packet is full. -/
def packets (cutBefore : Bool) (len : Nat) : Nat :=
  (if cutBefore then 1 else 0) + dataPackets len + (if len % 64 = 0 then 1 else 0)

/-- The first `i` packets are written without failure, the last at time `e` (in microseconds). -/
inductive Written (ws : Nat → WriteTime) : Nat → Nat → Prop where
  | zero : Written ws 0 0
  | succ {i e d} : Written ws i e → (ws i).us = some d → (ws i).fails = false → Written ws (i + 1) (e + d)

/-- A packet fails, one of the first `n`, at time `e`; those before it are written. -/
def FailsAt (ws : Nat → WriteTime) (n e : Nat) : Prop :=
  ∃ i e' d, i < n ∧ Written ws i e' ∧ (ws i).us = some d ∧ (ws i).fails = true ∧ e = e' + d

/-- The host takes each of the first `n` packets within `ms` milliseconds. -/
def Prompt (ws : Nat → WriteTime) (n ms : Nat) : Prop :=
  ∀ i < n, (ws i).fails = false ∧ ∃ d, (ws i).us = some d ∧ d ≤ ms * 1000

end PRpc.Spec
