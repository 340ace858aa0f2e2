import Verif.Model.EUsb
/-!
Model of the whole `EUsbWireTx` (`/repo/source/postcard-rpc/src/server/impls/embassy_usb_v0_4.rs` 241-455): the four ways
of sending, with the shared transmit buffer and log counter.  Each holds the mutex from its first line to its end, so
operations are sequential; one given up while waiting for the mutex does nothing.
-/

namespace PRpc

/-- `EUsbWireTxInner`, embassy_usb_v0_4.rs 241-247; `ep` holds `ep_in` and `pending_frame`.  (`timeout_ms_per_frame` only
decides when the timer may fire, see `WriteOut.cut`.) -/
structure EUsbTx where
  ep : UsbTx
  log_seq : BitVec 16
  tx_buf : Bytes
  deriving DecidableEq, Repr

/-- `init_without_build`, embassy_usb_v0_4.rs 223-229, with the buffer it was given. -/
def EUsbTx.new (tx_buf : Bytes) : EUsbTx := ⟨UsbTx.new, 0#16, tx_buf⟩

/-- What serializing a message produces (`postcard`, external): `bytes` in order, then possibly an error of the
message's own `Serialize` (`fails`).  If the bytes do not fit or the serializer fails, `kept` of them are left in the
slice. -/
structure Ser where
  bytes : Bytes
  fails : Bool
  kept : Nat
  deriving DecidableEq, Repr

/-- `postcard::to_slice(msg, slice)` (external; used at embassy_usb_v0_4.rs 315, 361): the used part, and the slice
afterwards. -/
def to_slice (m : Ser) (slice : Bytes) : Option Bytes × Bytes :=
  if m.fails = false ∧ m.bytes.length ≤ slice.length then (some m.bytes, m.bytes ++ slice.drop m.bytes.length)
  else (none, (m.bytes.take m.kept).take slice.length ++ slice.drop (min (min m.kept m.bytes.length) slice.length))

/-- The common part of `send` (embassy_usb_v0_4.rs 314-322) and `send_log_str` (360-368): header and message are
written into the buffer and the used part is sent. -/
def eusb_send_msg (o : Nat → WriteOut) (hdr : VarHeader) (m : Ser) (t : EUsbTx) : Exec (TxRes × EUsbTx) := do
  let wr ← hdr.write_to_slice t.tx_buf
  match wr.ret with
  | none => .ok (.Other, { t with tx_buf := wr.buf })
  | some (hdr_used, remain) =>
    let (bdy, remain) := to_slice m remain
    let t := { t with tx_buf := hdr_used ++ remain }
    match bdy with
    | none => .ok (.Other, t)
    | some bdy_used =>
      let used_ttl := hdr_used.length + bdy_used.length
      if used_ttl ≤ t.tx_buf.length then
        let (r, ep) := send_all o (t.tx_buf.take used_ttl) t.ep
        .ok (r, { t with ep := ep })
      else .ok (.Other, t)

/-- The key of the log topic at a length, embassy_usb_v0_4.rs 347-352 and 387-392; the constants `TOPIC_KEY1` … are
computed from `TOPIC_KEY` in lib.rs 409-414. -/
def log_key (key : Key) : VarKeyKind → VarKey
  | .Key1 => .Key1 (Key1.from_key8 key)
  | .Key2 => .Key2 (Key2.from_key8 key)
  | .Key4 => .Key4 (Key4.from_key8 key)
  | .Key8 => .Key8 key

/-- `postcard` serialization of a `str` (external): its length as a `usize` variable-length integer, then its bytes. -/
def ser_str (w : Nat) (s : Bytes) (kept : Nat) : Ser := ⟨varint_usize w s.length ++ s, false, kept⟩

/-- One operation on the transmitter. -/
inductive TxOp where
  /-- `send(hdr, msg)` -/
  | send (hdr : VarHeader) (m : Ser)
  /-- `send_raw(buf)` -/
  | send_raw (buf : Bytes)
  /-- `send_log_str(kkind, s)` (`kept` as in `Ser`) -/
  | send_log_str (kkind : VarKeyKind) (s : Bytes) (kept : Nat)
  /-- `send_log_fmt(kkind, args)`: the formatter's pieces, and whether it then reports an error -/
  | send_log_fmt (kkind : VarKeyKind) (pieces : List Bytes) (fails : Bool)
  deriving DecidableEq, Repr

/-- `WireTx for EUsbWireTx`, embassy_usb_v0_4.rs 296-455.  `w` is the size of `usize`, `logging` the log topic's key, `o`
the outcomes of the packet writes.
`send` 299-323, `send_raw` 325-334, `send_log_str` 336-369, `send_log_fmt` 371-455. -/
def eusb_op (w : Nat) (logging : Key) (op : TxOp) (o : Nat → WriteOut) (t : EUsbTx) : Exec (TxRes × EUsbTx) :=
  match op with
  | .send hdr m => eusb_send_msg o hdr m t
  | .send_raw buf =>
    let (r, ep) := send_all o buf t.ep
    .ok (r, { t with ep := ep })
  | .send_log_str kkind s kept =>
    let ctr := t.log_seq
    let t := { t with log_seq := t.log_seq + 1#16 }
    eusb_send_msg o ⟨log_key logging kkind, .Seq2 ctr⟩ (ser_str w s kept) t
  | .send_log_fmt kkind pieces fails => do
    let ctr := t.log_seq
    let t := { t with log_seq := t.log_seq + 1#16 }
    let (act_used, buf) ← log_fmt_buf w t.tx_buf (log_key logging kkind) ctr pieces fails
    let t := { t with tx_buf := buf }
    match act_used with
    | none => .ok (.Other, t)
    | some n =>
      let (r, ep) := send_all o (t.tx_buf.take n) t.ep
      .ok (r, { t with ep := ep })

/-- Operations one after the other. -/
def eusb_run (w : Nat) (logging : Key) : List (TxOp × (Nat → WriteOut)) → EUsbTx → Exec (List TxRes × EUsbTx)
  | [], t => .ok ([], t)
  | (op, o) :: ops, t => do
    let (r, t) ← eusb_op w logging op o t
    let (rs, t) ← eusb_run w logging ops t
    .ok (r :: rs, t)

end PRpc
