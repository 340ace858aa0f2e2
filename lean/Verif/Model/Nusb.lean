import Verif.Model.Basic
/-!
Model of the host's USB transport, `/repo/source/postcard-rpc/src/host_client/raw_nusb.rs` 15-25 and 346-511, and of the
packet-size detection in 239-261.

External: `nusb::transfer::Queue`.  `submit` adds one transfer; `next_complete` waits for the oldest pending one and
panics when none is pending; `cancel_all` makes the pending ones complete, in whatever way, and they still come out of
`next_complete`; `clear_halt` succeeds or fails.  The environment chooses what every transfer completes with.
Logging is left out.
-/

namespace PRpc

/-- `nusb::transfer::TransferError`, all cases matched at raw_nusb.rs 453-460. -/
inductive TransferError where
  | Cancelled
  | Stall
  | Disconnected
  | Fault
  | Unknown
  deriving DecidableEq, Repr

/-- `nusb::transfer::Completion`: `status` is `none` for `Ok(())`. -/
structure Completion where
  status : Option TransferError
  data : Bytes
  deriving DecidableEq, Repr

/-- `MAX_TRANSFER_SIZE`, `IN_FLIGHT_REQS`, `MAX_STALL_RETRIES`, raw_nusb.rs 20-25. -/
def MAX_TRANSFER_SIZE : Nat := 1024
@[inherit_doc MAX_TRANSFER_SIZE] def IN_FLIGHT_REQS : Nat := 4
@[inherit_doc MAX_TRANSFER_SIZE] def MAX_STALL_RETRIES : Nat := 10

/-- `NusbWireRx`, raw_nusb.rs 406-409: of the queue only the number of pending transfers, and `consecutive_errs`
(a `usize`, here unbounded). -/
structure NusbRx where
  pending : Nat
  consecutive_errs : Nat
  deriving DecidableEq, Repr

/-- The receiver as constructed, raw_nusb.rs 280-283. -/
def NusbRx.new : NusbRx := ⟨0, 0⟩

/-- `Queue::next_complete` (external): takes the next completion; `none` means still waiting. -/
def next_complete (s : NusbRx) : List Completion → Exec (Option (Completion × NusbRx × List Completion))
  | cs =>
    if s.pending = 0 then .panic
    else
      match cs with
      | [] => .ok none
      | c :: cs => .ok (some (c, { s with pending := s.pending - 1 }, cs))

/-- Refilling the queue, raw_nusb.rs 430-433. -/
def rehydrate (s : NusbRx) : NusbRx := { s with pending := s.pending + (IN_FLIGHT_REQS - s.pending) }

/-- The loop joining `n` cancelled requests, raw_nusb.rs 471-474; on `Sum.inl` it is still waiting. -/
def join_in_flight : Nat → NusbRx → List Completion → Exec (NusbRx ⊕ (NusbRx × List Completion))
  | 0, s, cs => .ok (.inr (s, cs))
  | n + 1, s, cs => do
    match ← next_complete s cs with
    | none => .ok (.inl s)
    | some (_, s, cs) => join_in_flight n s cs

/-- Is the error worth a recovery?  raw_nusb.rs 453-460. -/
def recoverable (e : TransferError) (consecutive_errs : Nat) : Bool :=
  match e with
  | .Stall | .Unknown => decide (consecutive_errs ≤ MAX_STALL_RETRIES)
  | .Cancelled => false
  | .Disconnected => false
  | .Fault => false

/-- `Result` of `receive`, with `waiting` for a call that has not returned yet. -/
inductive NusbRes where
  | Ok (data : Bytes)
  | Err (e : TransferError)
  | waiting
  deriving DecidableEq, Repr

/-- What a call of `receive` leaves: its result, the receiver, the outcomes left for `clear_halt`, and the completions
not taken. -/
structure NusbOut where
  res : NusbRes
  rx : NusbRx
  clears : List Bool
  rest : List Completion
  deriving DecidableEq, Repr

/-- `recv_inner`, raw_nusb.rs 427-510: `clears` are the outcomes of successive `clear_halt` calls (success when the list
runs out), `cs` the completions of the transfers in order.  `fuel` bounds the turns of the loop; each turn takes a
completion, so `cs.length + 1` is enough (`recv_inner` below). -/
def recv_loop : Nat → List Bool → NusbRx → List Completion → Exec NusbOut
  | 0, clears, s, cs => .ok ⟨.waiting, s, clears, cs⟩
  | fuel + 1, clears, s, cs => do
    let s := rehydrate s
    match ← next_complete s cs with
    | none => .ok ⟨.waiting, s, clears, cs⟩
    | some (res, s, cs) =>
      match res.status with
      | some e =>
        let s := { s with consecutive_errs := s.consecutive_errs + 1 }
        if recoverable e s.consecutive_errs then
          match ← join_in_flight (IN_FLIGHT_REQS - 1) s cs with
          | .inl s => .ok ⟨.waiting, s, clears, []⟩
          | .inr (s, cs) =>
            if clears.headD true then recv_loop fuel clears.tail s cs
            else .ok ⟨.Err e, s, clears.tail, cs⟩
        else .ok ⟨.Err e, s, clears, cs⟩
      | none => .ok ⟨.Ok res.data, { s with consecutive_errs := 0 }, clears, cs⟩

/-- `recv_inner`, raw_nusb.rs 427-510. -/
def recv_inner (clears : List Bool) (s : NusbRx) (cs : List Completion) : Exec NusbOut :=
  recv_loop (cs.length + 1) clears s cs

/-- Calling `receive` up to `n` times in a row, as `in_worker_inner` does (host_client/util.rs 215-341, which stops at
the first error): the frames returned, how it ended (`none`: after `n` calls or waiting for more), and the receiver. -/
def nusb_receive_all : Nat → List Bool → NusbRx → List Completion → Exec (List Bytes × Option TransferError × NusbRx)
  | 0, _, s, _ => .ok ([], none, s)
  | n + 1, clears, s, cs => do
    let o ← recv_inner clears s cs
    match o.res with
    | .waiting => .ok ([], none, o.rx)
    | .Err e => .ok ([], some e, o.rx)
    | .Ok d => do
      let (ds, e, s) ← nusb_receive_all n o.clears o.rx o.rest
      .ok (d :: ds, e, s)

/-! ### Sending -/

/-- The packet size kept for the transmitter, raw_nusb.rs 239-258: the least over the bulk OUT endpoints of the
interface. -/
def detect_mps : List Nat → Option Nat
  | eps => eps.foldl (fun mps ep => some (match mps with | some old => min old ep | none => ep)) none

/-- `NusbWireTx`, raw_nusb.rs 352-355: `max_packet_size`; of the queue, the transfers submitted so far and the number of
those whose completion has not been taken. -/
structure NusbTx where
  max_packet_size : Option Nat
  submitted : List Bytes
  pending : Nat
  deriving DecidableEq, Repr

/-- `Queue::submit` (external). -/
def NusbTx.submit (t : NusbTx) (d : Bytes) : NusbTx :=
  { t with submitted := t.submitted ++ [d], pending := t.pending + 1 }

/-- `Result` of `send`, with `waiting` for a call that has not returned yet. -/
inductive NusbSent where
  | Ok
  | Err (e : TransferError)
  | waiting
  deriving DecidableEq, Repr

/-- Taking one completion of an OUT transfer and returning its error if any, raw_nusb.rs 387-391 and 394-398. -/
def tx_complete (t : NusbTx) (cs : List Completion) : Exec (NusbSent × NusbTx × List Completion) :=
  if t.pending = 0 then .panic
  else
    match cs with
    | [] => .ok (.waiting, t, [])
    | c :: cs =>
      let t := { t with pending := t.pending - 1 }
      match c.status with
      | some e => .ok (.Err e, t, cs)
      | none => .ok (.Ok, t, cs)

/-- Does the frame need a zero-length packet?  raw_nusb.rs 374-378; the remainder by zero panics. -/
def needs_zlp (mps : Option Nat) (len : Nat) : Exec Bool :=
  match mps with
  | some mps => if mps = 0 then .panic else .ok (decide (len % mps = 0))
  | none => .ok true

/-- `send_inner`, raw_nusb.rs 373-402. -/
def send_inner (t : NusbTx) (data : Bytes) (cs : List Completion) : Exec (NusbSent × NusbTx × List Completion) := do
  let zlp ← needs_zlp t.max_packet_size data.length
  let t := t.submit data
  let t := if zlp then t.submit [] else t
  let (r, t, cs) ← tx_complete t cs
  if r ≠ .Ok then .ok (r, t, cs)
  else if zlp then tx_complete t cs
  else .ok (.Ok, t, cs)

/-- Sending frames one after the other, as `out_worker` does (host_client/util.rs 153-185), which stops at the first
error: how many sends succeeded, how the last one ended, and the transmitter. -/
def nusb_send_all : List Bytes → NusbTx → List Completion → Exec (Nat × NusbSent × NusbTx)
  | [], t, _ => .ok (0, .Ok, t)
  | d :: ds, t, cs => do
    let (r, t, cs) ← send_inner t d cs
    if r ≠ .Ok then .ok (0, r, t)
    else do
      let (n, r, t) ← nusb_send_all ds t cs
      .ok (n + 1, r, t)

end PRpc

namespace PRpc

/-! ### WebUSB -/

/-- `WebUsbWire::send`, host_client/webusb.rs 157-164: the OUT transfers asked for (external: `transfer_out` of the
browser, one transfer with exactly these bytes).  Its error is returned as it is. -/
def webusb_send (data : Bytes) : List Bytes := [data]

end PRpc
