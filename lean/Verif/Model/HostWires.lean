import Verif.Model.Serial
import Verif.Model.Nusb
/-!
Model of what the host's wire receivers and transmitters report: the serial port with read errors and end of file
(`/repo/source/postcard-rpc/src/host_client/serial.rs` 172-228) and WebUSB
(`/repo/source/postcard-rpc/src/host_client/webusb.rs` 24-53 and 154-193).
-/

namespace PRpc

/-- How a call of `receive` stands: returned a message, returned an error, or waits for the port
(`Result<Vec<u8>, SerialWireRxError>`, serial.rs 166-176). -/
inductive SerialRes where
  | Ok (d : Bytes)
  | Err
  | waiting
  deriving DecidableEq, Repr

/-- `SerialWireRx::recv_inner`, serial.rs 182-227, when the port's reads return `reads` and then, if `fails`, an error
(`?` at 193).  A read at end of file is an empty element of `reads` (`used = 0`). -/
def SerialRx.receive (s : SerialRx) (reads : List Bytes) (fails : Bool) : Exec (SerialRes × SerialRx × List Bytes) := do
  let (m, s, reads) ← s.recv_inner reads
  match m with
  | some d => .ok (.Ok d, s, reads)
  | none => .ok (if fails then .Err else .waiting, s, reads)

/-- `in_worker_inner`'s use of `receive`, host_client/util.rs 223-227: call it until it fails or waits, at most `calls`
times.  The messages received, and the failure or wait that ended it (`none`: all calls returned messages). -/
def SerialRx.receive_loop (s : SerialRx) (reads : List Bytes) (fails : Bool) :
    Nat → Exec (List Bytes × Option SerialRes)
  | 0 => .ok ([], none)
  | n + 1 => do
    let (r, s, reads) ← s.receive reads fails
    match r with
    | .Ok d => do
      let (ds, e) ← s.receive_loop reads fails n
      .ok (d :: ds, e)
    | e => .ok ([], some e)

/-! ### WebUSB -/

/-- `UsbTransferStatus` of web-sys (external), as matched at webusb.rs 44-49; `other` stands for its hidden variant. -/
inductive WebStatus where
  | Ok | Stall | Babble | other
  deriving DecidableEq, Repr

/-- `webusb::Error`, webusb.rs 25-33.  The text of a browser error is left out. -/
inductive WebErr where
  | Browser
  | UsbTransfer (cause : String)
  deriving DecidableEq, Repr

/-- `From<UsbTransferStatus> for Error`, webusb.rs 42-53 (`Ok` is `unreachable!()`). -/
def WebErr.from_status : WebStatus → Exec WebErr
  | .Ok => .panic
  | .Stall => .ok (.UsbTransfer "stall")
  | .Babble => .ok (.UsbTransfer "babble")
  | .other => .ok (.UsbTransfer "unknown")

/-- A promise of the browser once settled (external, `JsFuture`). -/
inductive Js (α : Type) where
  | rejected
  | resolved (a : α)
  deriving DecidableEq, Repr

/-- `UsbInTransferResult` (external): status and data.  `data` is the whole buffer under the view (webusb.rs 183). -/
structure WebIn where
  status : WebStatus
  data : Option Bytes
  deriving DecidableEq, Repr

/-- `UsbOutTransferResult` (external): status and bytes written. -/
structure WebOut where
  status : WebStatus
  bytesWritten : Nat
  deriving DecidableEq, Repr

/-- `WebUsbWire::receive`, webusb.rs 170-192, when `transfer_in` settles as given. -/
def webusb_receive : Js WebIn → Exec (Except WebErr Bytes)
  | .rejected => .ok (.error .Browser)
  | .resolved res =>
    if res.status = .Ok then
      match res.data with
      | some d => .ok (.ok d)
      | none => .ok (.ok [])
    else do
      let e ← WebErr.from_status res.status
      .ok (.error e)

/-- `in_worker_inner`'s use of it, host_client/util.rs 223-227: the messages received and the error that ended it. -/
def webusb_receive_loop : List (Js WebIn) → Exec (List Bytes × Option WebErr)
  | [] => .ok ([], none)
  | r :: rs => do
    match ← webusb_receive r with
    | .error e => .ok ([], some e)
    | .ok d => do
      let (ds, e) ← webusb_receive_loop rs
      .ok (d :: ds, e)

/-- The result of `WebUsbWire::send`, webusb.rs 157-164: `none` for `Ok(())`.  `throws` says whether `transfer_out` itself
throws (the first `?` at 162), the other argument how its promise settles (the second); the settled value is dropped. -/
def webusb_send_result (throws : Bool) (p : Js WebOut) : Option WebErr :=
  if throws then some .Browser
  else
    match p with
    | .rejected => some .Browser
    | .resolved _ => none

end PRpc
