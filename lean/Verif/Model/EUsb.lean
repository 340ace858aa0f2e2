import Verif.Model.Header
/-!
Model of the embassy-usb server transport, `/repo/source/postcard-rpc/src/server/impls/embassy_usb_v0_4.rs` 240-628
(`embassy_usb_v0_3.rs` has the same text apart from a fixed allowance of 2 ms per packet).

External: the bulk endpoints of `embassy-usb`.  An `EndpointIn::write` puts one packet on the bus or fails, and its
future may be dropped at any moment (timer or cancellation), in which case the packet may or may not have left.
An `EndpointOut::read` takes the next packet if it fits the given slice, otherwise fails with `BufferOverflow`; whether
the packet is then lost or stays in the endpoint is up to the driver, hence a parameter.
The `Mutex` around the transmitter makes sends sequential.
-/

namespace PRpc

/-- What happens to one `ep_in.write(..).await` (external `embassy-usb`; used at embassy_usb_v0_4.rs 480, 488, 495).
The flag of `err` and `cut` tells whether the packet went out nevertheless; `cut` is the future being dropped at this
await, by the timer of line 503 or by the caller. -/
inductive WriteOut where
  | ok
  | err (onWire : Bool)
  | cut (onWire : Bool)
  deriving DecidableEq, Repr

/-- `Result<(), WireTxErrorKind>` of a send; `Timeout` also stands for a send abandoned by its caller. -/
inductive TxRes where
  | Ok
  | ConnectionClosed
  | Timeout
  | Other
  deriving DecidableEq, Repr

/-- The parts of `EUsbWireTxInner` (embassy_usb_v0_4.rs 241-247) that `send_all` touches: `pending_frame`, and the
packets put on the bus so far, for the endpoint. -/
structure UsbTx where
  pending_frame : Bool
  pkts : List Bytes
  deriving DecidableEq, Repr

/-- One `ep_in.write(ch).await` inside `send_fut`: `none` means the future goes on. -/
def ep_write (o : WriteOut) (p : Bytes) (t : UsbTx) : Option TxRes × UsbTx :=
  match o with
  | .ok => (none, { t with pkts := t.pkts ++ [p] })
  | .err w => (some .ConnectionClosed, if w then { t with pkts := t.pkts ++ [p] } else t)
  | .cut w => (some .Timeout, if w then { t with pkts := t.pkts ++ [p] } else t)

/-- `slice::chunks(64)` (core library), used at embassy_usb_v0_4.rs 487. -/
def chunks64 (l : Bytes) : List Bytes :=
  if _h : l = [] then [] else l.take 64 :: chunks64 (l.drop 64)
termination_by l.length
decreasing_by
  have := List.length_pos_iff.mpr _h
  simp; omega

/-- The `for ch in out.chunks(64)` loop, embassy_usb_v0_4.rs 487-491; `i` counts the writes of this send, `o` gives
their outcomes. -/
def write_chunks (o : Nat → WriteOut) : Nat → List Bytes → UsbTx → Option TxRes × UsbTx
  | _, [], t => (none, t)
  | i, ch :: chs, t =>
    match ep_write (o i) ch t with
    | (none, t) => write_chunks o (i + 1) chs t
    | (some r, t) => (some r, t)

/-- `send_all`, embassy_usb_v0_4.rs 459-507, the part after the pending-frame check (483-500). -/
def send_body (o : Nat → WriteOut) (i : Nat) (out : Bytes) (t : UsbTx) : TxRes × UsbTx :=
  let t := { t with pending_frame := true }
  match write_chunks o i (chunks64 out) t with
  | (some r, t) => (r, t)
  | (none, t) =>
    if (out.length &&& (64 - 1)) = 0 then
      match ep_write (o (i + (chunks64 out).length)) [] t with
      | (some r, t) => (r, t)
      | (none, t) => (.Ok, { t with pending_frame := false })
    else (.Ok, { t with pending_frame := false })

/-- `send_all`, embassy_usb_v0_4.rs 459-507. -/
def send_all (o : Nat → WriteOut) (out : Bytes) (t : UsbTx) : TxRes × UsbTx :=
  if out.isEmpty then (.Ok, t)
  else if t.pending_frame then
    match ep_write (o 0) [] t with
    | (some r, t) => (r, t)
    | (none, t) => send_body o 1 out t
  else send_body o 0 out t

/-- A history of sends, one after the other (the mutex of embassy_usb_v0_4.rs 252 is held during each): frames with the
outcomes of their packet writes; the results, and the transmitter at the end. -/
def send_history : List (Bytes × (Nat → WriteOut)) → UsbTx → List TxRes × UsbTx
  | [], t => ([], t)
  | (out, o) :: h, t =>
    let (r, t) := send_all o out t
    let (rs, t) := send_history h t
    (r :: rs, t)

/-- The transmitter as constructed, embassy_usb_v0_4.rs 223-229. -/
def UsbTx.new : UsbTx := ⟨false, []⟩

/-- `DEFAULT_TIMEOUT_MS_PER_FRAME`, embassy_usb_v0_4.rs 25. -/
def DEFAULT_TIMEOUT_MS_PER_FRAME : Nat := 2

/-- `set_timeout_ms_per_frame`, embassy_usb_v0_4.rs 280-287: the value stored. -/
def set_timeout_ms_per_frame (timeout : Nat) : Nat := max (min timeout 60000) 1

/-- The timeout computed by `send_all`, embassy_usb_v0_4.rs 474-475, for `usize` values up to `usize_max`: with
overflow checks an overflow panics, without them it wraps. -/
def send_timeout (usize_max : Nat) (overflow_checks : Bool) (len per : Nat) : Exec Nat :=
  if len + 63 > usize_max ∧ overflow_checks then .panic
  else
    let frames := ((len + 63) % (usize_max + 1)) / 64
    if frames * per > usize_max ∧ overflow_checks then .panic
    else .ok ((frames * per) % (usize_max + 1))

/-- `Result` of `EUsbWireRx::receive`, with `waiting` for a call that has not returned yet because the host has sent
nothing more. -/
inductive RxRes where
  | Ok (frame : Bytes)
  | ReceivedMessageTooLarge
  | ConnectionClosed
  | waiting
  deriving DecidableEq, Repr

/-- An item offered by the endpoint: a packet, or the endpoint being disabled (one failing read). -/
inductive UsbIn where
  | packet (p : Bytes)
  | disabled
  deriving DecidableEq, Repr

/-- The drain loop of `receive`, embassy_usb_v0_4.rs 617-626, with a buffer of `buflen` bytes; `lost` says whether the
driver drops a packet that does not fit. -/
def rx_drain (lost : Bool) (buflen : Nat) : List UsbIn → RxRes × List UsbIn
  | [] => (.waiting, [])
  | .disabled :: q => (.ConnectionClosed, q)
  | .packet p :: q =>
    if p.length > buflen then (.ReceivedMessageTooLarge, if lost then q else .packet p :: q)
    else if p.length = 64 then rx_drain lost buflen q
    else (.ReceivedMessageTooLarge, q)

/-- The main loop of `receive`, embassy_usb_v0_4.rs 594-613: `got` is the filled part of the buffer.
(With the buffer full the drain loop takes over; it behaves alike when nothing more comes.) -/
def rx_loop (lost : Bool) (buflen : Nat) (got : Bytes) : List UsbIn → RxRes × List UsbIn
  | [] => (.waiting, [])
  | .disabled :: q => (.ConnectionClosed, q)
  | .packet p :: q =>
    if buflen - got.length = 0 then rx_drain lost buflen (.packet p :: q)
    else if p.length > buflen - got.length then (.ReceivedMessageTooLarge, if lost then q else .packet p :: q)
    else if p.length ≠ 64 then (.Ok (got ++ p), q)
    else rx_loop lost buflen (got ++ p) q

/-- `EUsbWireRx::receive`, embassy_usb_v0_4.rs 591-627. -/
def usb_receive (lost : Bool) (buflen : Nat) (q : List UsbIn) : RxRes × List UsbIn := rx_loop lost buflen [] q

/-- Calling `receive` up to `calls` times with the same buffer (as `Server::run` does, server/mod.rs 420-454), stopping
when it waits. -/
def usb_receive_all (lost : Bool) (buflen : Nat) : Nat → List UsbIn → List RxRes × List UsbIn
  | 0, q => ([], q)
  | n + 1, q =>
    match usb_receive lost buflen q with
    | (.waiting, q) => ([], q)
    | (r, q) =>
      let (rs, q) := usb_receive_all lost buflen n q
      (r :: rs, q)

/-! ### Formatted log messages -/

/-- `varint_max::<usize>()`, embassy_usb_v0_4.rs 533-547, for a `usize` of `w` bytes. -/
def varint_max (w : Nat) : Nat := (w * 8 + (7 - 1)) / 7

/-- The loop of `varint_usize`, embassy_usb_v0_4.rs 552-560; `fuel` is the number of iterations left.  `value` is a
`usize`; `to_le_bytes()[0]` is its low byte. -/
def varint_loop : Nat → Nat → Bytes
  | 0, _ => []
  | fuel + 1, value =>
    if value < 128 then [BitVec.ofNat 8 value]
    else (BitVec.ofNat 8 value ||| 0x80#8) :: varint_loop fuel (value >>> 7)

/-- `varint_usize`, embassy_usb_v0_4.rs 550-563 (the returned part of the array). -/
def varint_usize (w n : Nat) : Bytes := varint_loop (varint_max w) n

/-- `actual_varint_max_len`, embassy_usb_v0_4.rs 565-577. -/
def actual_varint_max_len (w largest : Nat) : Nat :=
  if largest < 2 <<< 7 then 1
  else if largest < 2 <<< 14 then 2
  else if largest < 2 <<< 21 then 3
  else if largest < 2 <<< 28 then 4
  else varint_max w

/-- `SliceWriter::write_str`, embassy_usb_v0_4.rs 511-530: `written` and `rest` are the two parts of the body; the
result is the `Result` as a Boolean.  `copy_from_slice` (520) panics when the lengths differ. -/
def slice_write_str (s : Bytes) (written rest : Bytes) : Exec (Bool × Bytes × Bytes) :=
  let bad := decide (s.length > rest.length)
  let to_write := min s.length rest.length
  let now := rest.take to_write
  let later := rest.drop to_write
  do
    let now ← copy_from_slice now s
    .ok (!bad, written ++ now, later)

/-- `core::fmt::write(&mut sw, args)` (embassy_usb_v0_4.rs 422): the formatter writes pieces one after the other and
stops at the first error; a `Display` implementation may itself report an error after some pieces (`fails`). -/
def fmt_write : List Bytes → Bool → Bytes → Bytes → Exec (Bool × Bytes × Bytes)
  | [], fails, written, rest => .ok (!fails, written, rest)
  | p :: ps, fails, written, rest => do
    let (ok, written, rest) ← slice_write_str p written rest
    if ok then fmt_write ps fails written rest else .ok (false, written, rest)

/-- `for b in len_field.iter_mut() { *b = 0x80 }; if let Some(b) = len_field.last_mut() { *b = 0x00 }`,
embassy_usb_v0_4.rs 412-417. -/
def blank_len_field (n : Nat) : Bytes := (List.replicate n 0x80#8).set (n - 1) 0x00#8

/-- `if let Some(b) = len_used.last_mut() { *b |= 0x80 }`, embassy_usb_v0_4.rs 445-447. -/
def mark_last (l : Bytes) : Bytes :=
  match l.getLast? with
  | some b => l.dropLast ++ [b ||| 0x80#8]
  | none => l

/-- `body[start..].iter_mut().for_each(|b| *b = b'.')` with `start = body.len() - 3`, embassy_usb_v0_4.rs 431-434. -/
def dots (body : Bytes) : Bytes := body.take (body.length - 3) ++ [46#8, 46#8, 46#8]

/-- `send_log_fmt`, embassy_usb_v0_4.rs 385-452, up to the call of `send_all`: the number of bytes to send (`none` is
`Err(Other)`) and the transmit buffer afterwards.  `w` is the size of `usize` in bytes, `tx_buf` the transmit buffer,
`key` the logging topic's key at the requested length, `ctr` the log sequence number, `pieces` and `fails` the
formatter's output. -/
def log_fmt_buf (w : Nat) (tx_buf : Bytes) (key : VarKey) (ctr : BitVec 16) (pieces : List Bytes) (fails : Bool) :
    Exec (Option Nat × Bytes) := do
  let ttl_len := tx_buf.length
  let wr ← (VarHeader.mk key (.Seq2 ctr)).write_to_slice tx_buf
  match wr.ret with
  | none => .ok (none, wr.buf)
  | some (hdr, remaining) =>
    let max_log_len := actual_varint_max_len w remaining.length
    if remaining.length < max_log_len then .ok (none, wr.buf)
    else
      let len_field := blank_len_field max_log_len
      let body := remaining.drop max_log_len
      let body_len := body.length
      let (ok, written, rest) ← fmt_write pieces fails [] body
      let remain := rest.length
      let used := body_len - remain
      let body := written ++ rest
      let body := if !ok ∧ body.length ≥ 3 then dots body else body
      let len_used := varint_usize w used
      let len_used := if len_used.length ≠ len_field.length then mark_last len_used else len_used
      if len_used.length ≤ len_field.length then
        let len_field := len_used ++ len_field.drop len_used.length
        let act_used := ttl_len - remain
        .ok (some act_used, hdr ++ len_field ++ body)
      else .panic

/-- The slice `&tx_buf[..act_used]` that `send_log_fmt` hands to `send_all`, embassy_usb_v0_4.rs 454 (`act_used` is at
most the buffer's length); `none` is `Err(Other)`. -/
def log_fmt_frame (w : Nat) (tx_buf : Bytes) (key : VarKey) (ctr : BitVec 16) (pieces : List Bytes) (fails : Bool) :
    Exec (Option Bytes) := do
  let r ← log_fmt_buf w tx_buf key ctr pieces fails
  .ok (r.1.map fun n => r.2.take n)

end PRpc
