import Verif.Model.EUsb
/-!
The time limit of a USB send: `send_all` of `/repo/source/postcard-rpc/src/server/impls/embassy_usb_v0_4.rs` 459-507 with the
timer of line 503, and the allowance set by `set_timeout_ms_per_frame` (280-287).  (`embassy_usb_v0_3.rs` 411-458 always allows
2 ms for each packet, line 427, and has no way to change it.)

External: `embassy_time::Timer` and `embassy_futures::select`.  Time is counted in microseconds.  Simplifications: the task is
polled at once when a packet write or the timer is ready, and a write that is ready together with the timer counts as completed
(`select` polls its first future first); computing takes no time.  Waiting for the mutex is not part of a send: the timer starts
when the mutex is held (lines 304, 326, 337, 376).
-/

namespace PRpc

/-- How one `ep_in.write(..)` goes if it is left alone (external `embassy-usb`): it is ready after `us` microseconds (`none`:
never), then it failed or not; `onWire` tells whether a packet whose write failed or is given up gets out nevertheless. -/
structure WriteTime where
  us : Option Nat
  fails : Bool
  onWire : Bool
  deriving DecidableEq, Repr

/-- When the first `i` writes of a send are ready, if each is left alone. -/
def elapsed (ws : Nat → WriteTime) : Nat → Option Nat
  | 0 => some 0
  | i + 1 =>
    match elapsed ws i, (ws i).us with
    | some e, some d => some (e + d)
    | _, _ => none

/-- What becomes of write `i` of a send with a limit of `limit` microseconds, `select(send_fut, Timer::after_millis(..))`,
embassy_usb_v0_4.rs 503. -/
def timed_outcome (limit : Nat) (ws : Nat → WriteTime) (i : Nat) : WriteOut :=
  match elapsed ws (i + 1) with
  | none => .cut (ws i).onWire
  | some e => if e ≤ limit then (if (ws i).fails then .err (ws i).onWire else .ok) else .cut (ws i).onWire

/-- When `send_fut` (embassy_usb_v0_4.rs 477-501) is ready if it is left alone and its first write starts at `e`; `n` writes are
to be made, the first is number `i`. -/
def fut_time (ws : Nat → WriteTime) : Nat → Nat → Nat → Option Nat
  | _, 0, e => some e
  | i, n + 1, e =>
    match (ws i).us with
    | none => none
    | some d => if (ws i).fails then some (e + d) else fut_time ws (i + 1) n (e + d)

/-- The number of packet writes of `send_fut`, embassy_usb_v0_4.rs 480, 487-488, 495. -/
def n_writes (out : Bytes) (pending_frame : Bool) : Nat :=
  (if pending_frame then 1 else 0) + (chunks64 out).length + (if (out.length &&& (64 - 1)) = 0 then 1 else 0)

/-- `send_all`, embassy_usb_v0_4.rs 459-507, with its result, the time it takes and the transmitter afterwards; `umax` is
`usize::MAX`. -/
def send_all_timed (umax : Nat) (overflow_checks : Bool) (per : Nat) (ws : Nat → WriteTime) (out : Bytes) (t : UsbTx) :
    Exec (TxRes × Nat × UsbTx) :=
  if out.isEmpty then .ok (.Ok, 0, t)
  else do
    let timeout_ms ← send_timeout umax overflow_checks out.length per
    let limit := timeout_ms * 1000
    let (r, t') := send_all (timed_outcome limit ws) out t
    .ok (r, match fut_time ws 0 (n_writes out t.pending_frame) 0 with | some e => min e limit | none => limit, t')

/-- The parts of `EUsbWireTxInner` (embassy_usb_v0_4.rs 241-247) that matter here. -/
structure TimedTx where
  ep : UsbTx
  timeout_ms_per_frame : Nat

/-- `init_without_build`, embassy_usb_v0_4.rs 223-229 (also 154-160). -/
def TimedTx.new : TimedTx := ⟨UsbTx.new, DEFAULT_TIMEOUT_MS_PER_FRAME⟩

/-- What is done with the transmitter: the allowance is set, or a frame is sent (by any of the four ways, which all hand
`*timeout_ms_per_frame` to `send_all`: embassy_usb_v0_4.rs 319, 333, 365, 454). -/
inductive TimedOp where
  | set (timeout : Nat)
  | send (out : Bytes) (ws : Nat → WriteTime)

/-- One such operation; each holds the mutex throughout (embassy_usb_v0_4.rs 285, 304, 326, 337, 376).  Of a send: the result
and the time taken. -/
def timed_op (umax : Nat) (overflow_checks : Bool) (op : TimedOp) (t : TimedTx) : Exec (Option (TxRes × Nat) × TimedTx) :=
  match op with
  | .set timeout => .ok (none, { t with timeout_ms_per_frame := set_timeout_ms_per_frame timeout })
  | .send out ws => do
    let (r, us, ep) ← send_all_timed umax overflow_checks t.timeout_ms_per_frame ws out t.ep
    .ok (some (r, us), { t with ep := ep })

/-- Operations one after the other. -/
def timed_run (umax : Nat) (overflow_checks : Bool) : List TimedOp → TimedTx → Exec (List (Option (TxRes × Nat)) × TimedTx)
  | [], t => .ok ([], t)
  | op :: ops, t => do
    let (r, t) ← timed_op umax overflow_checks op t
    let (rs, t) ← timed_run umax overflow_checks ops t
    .ok (r :: rs, t)

end PRpc
