import Verif.Model.EUsbTx
import Verif.Model.Wire
/-!
Model of the channel transport of the server (`/repo/source/postcard-rpc/src/server/impls/test_channels.rs` 104-297): calls
of `ChannelWireTx` by any number of tasks, and of `ChannelWireRx::receive`, over one `tokio` channel (external: bounded,
first in first out, `recv` returns `None` once it is empty and every sender is gone).  `select!` without `biased` may take
any branch that is ready.  `Stopper` is `host_client/util.rs` 33-65.
-/

namespace PRpc

/-- `ChannelWireTx` and its channel, test_channels.rs 110-114, with the calls suspended in `inner_send` and the frame each
has assembled.  Calls are numbered in the order they start (`next`). -/
structure ChSt where
  cap : Nat
  queue : List Bytes
  log_ctr : BitVec 32
  stopped : Bool
  rx_open : Bool
  tx_open : Bool
  next : Nat
  calls : List (Nat × Bytes)
  deriving DecidableEq, Repr

/-- `ChannelWireTx::new`, test_channels.rs 118-124, on a channel of capacity `cap`. -/
def ChSt.new (cap : Nat) : ChSt := ⟨cap, [], 0#32, false, true, true, 0, []⟩

/-- `postcard::to_stdvec(msg).unwrap()` (external), test_channels.rs 162, 208. -/
def to_stdvec (m : Ser) : Exec Bytes := if m.fails then .panic else .ok m.bytes

/-- The common part of `send` 161-163 and of the log functions: header and body in one vector. -/
def ch_frame (hdr : VarHeader) (m : Ser) : Exec Bytes := do
  let hdr_ser ← hdr.write_to_vec
  let bdy_ser ← to_stdvec m
  .ok (hdr_ser ++ bdy_ser)

/-- `format!("{a}")` (external), test_channels.rs 207: panics if the formatter reports an error. -/
def format_args (pieces : List Bytes) (fails : Bool) : Exec Bytes := if fails then .panic else .ok pieces.flatten

/-- A call up to its first suspension, test_channels.rs 156-211: the frame handed to `inner_send`, and the log counter
(atomic, advanced even if the call panics afterwards).
`send` 156-165, `send_raw` 167-170, `send_log_str` 172-188, `send_log_fmt` 190-211. -/
def ch_begin (w : Nat) (logging : Key) (op : TxOp) (ctr : BitVec 32) : Exec Bytes × BitVec 32 :=
  match op with
  | .send hdr m => (ch_frame hdr m, ctr)
  | .send_raw buf => (.ok buf, ctr)
  | .send_log_str kkind s kept => (ch_frame ⟨log_key logging kkind, .Seq4 ctr⟩ (ser_str w s kept), ctr + 1#32)
  | .send_log_fmt kkind pieces fails =>
    (do
      let buf ← (VarHeader.mk (log_key logging kkind) (.Seq4 ctr)).write_to_vec
      let msg ← format_args pieces fails
      let msg ← to_stdvec (ser_str w msg 0)
      .ok (buf ++ msg), ctr + 1#32)

/-- What can happen. -/
inductive ChEv where
  /-- a call starts -/
  | start (op : TxOp)
  /-- call `i` returns `Ok(())` -/
  | sent (i : Nat)
  /-- call `i` returns `Err(ChannelClosed)` -/
  | failed (i : Nat)
  /-- the future of call `i` is dropped -/
  | dropped (i : Nat)
  /-- `receive` returns a frame -/
  | got (b : Bytes)
  /-- `receive` takes the frame `b` and returns `MessageTooLarge` -/
  | too_large (b : Bytes)
  /-- `receive` returns `ChannelClosed` -/
  | rx_closed
  /-- `Stopper::stop` -/
  | stop
  /-- the `ChannelWireRx` is dropped -/
  | close_rx
  /-- the last `ChannelWireTx` is dropped -/
  | close_tx
  deriving DecidableEq, Repr

/-- One event, if it is possible.  `inner_send` 131-150: ready are the stop branch once stopped, and the send branch once
there is room or the receiver is gone.  `receive` 254-278 with a buffer of `buf` bytes: ready are the stop branch once
stopped, and the channel once it holds a frame or every sender is gone. -/
def ch_step (w : Nat) (logging : Key) (buf : Nat) (s : ChSt) : ChEv → Option ChSt
  | .start op =>
    if s.tx_open then
      let (r, ctr) := ch_begin w logging op s.log_ctr
      match r with
      | .panic => some { s with log_ctr := ctr, next := s.next + 1 }
      | .ok f => some { s with log_ctr := ctr, next := s.next + 1, calls := s.calls ++ [(s.next, f)] }
    else none
  | .sent i =>
    match s.calls.find? (·.1 = i) with
    | none => none
    | some c =>
      if s.rx_open ∧ s.queue.length < s.cap then
        some { s with calls := s.calls.filter (·.1 ≠ i), queue := s.queue ++ [c.2] }
      else none
  | .failed i =>
    if (s.calls.find? (·.1 = i)).isSome ∧ (s.stopped ∨ s.rx_open = false) then
      some { s with calls := s.calls.filter (·.1 ≠ i) }
    else none
  | .dropped i =>
    if (s.calls.find? (·.1 = i)).isSome then some { s with calls := s.calls.filter (·.1 ≠ i) } else none
  | .got b =>
    if s.rx_open ∧ s.queue.head? = some b ∧ b.length ≤ buf then some { s with queue := s.queue.tail } else none
  | .too_large b =>
    if s.rx_open ∧ s.queue.head? = some b ∧ buf < b.length then some { s with queue := s.queue.tail } else none
  | .rx_closed =>
    if s.rx_open ∧ (s.stopped ∨ (s.queue = [] ∧ s.tx_open = false)) then some s else none
  | .stop => some { s with stopped := true }
  | .close_rx => some { s with rx_open := false }
  | .close_tx => if s.calls = [] then some { s with tx_open := false } else none

/-- A sequence of events. -/
def ch_run (w : Nat) (logging : Key) (buf : Nat) : List ChEv → ChSt → Option ChSt
  | [], s => some s
  | e :: es, s =>
    match ch_step w logging buf s e with
    | none => none
    | some s => ch_run w logging buf es s

/-- What `receive` returns, as seen by `Server::run`: `ChannelWireRxError`, test_channels.rs 282-288. -/
inductive ChRxErr where
  | ChannelClosed
  | MessageTooLarge
  deriving DecidableEq, Repr

/-- `ChannelWireRxError::as_kind`, test_channels.rs 290-297. -/
def ChRxErr.as_kind : ChRxErr → WireRxErrorKind
  | .ChannelClosed => .ConnectionClosed
  | .MessageTooLarge => .ReceivedMessageTooLarge

end PRpc
