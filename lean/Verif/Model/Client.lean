import Verif.Model.Subs
/-!
Model of the host client (`/repo/source/postcard-rpc/src/host_client/mod.rs` 177-460, 767-779, 921-970) and its two
worker tasks (`/repo/source/postcard-rpc/src/host_client/util.rs` 33-65, 98-341) as a labelled transition system.

A state holds what all clones of a client share, plus one entry per call and per publication ever started.  A label names
which task takes its next step and resolves every choice made outside the code (bytes received, transport results, which
ready `select!` branch is taken, which waiter is woken).  `step s l = none` means the step is not possible in `s`.  The
theorems quantify over all label lists, hence over all schedules, all cancellation points and all transport behaviours.

Contracts of external crates:
* `maitake_sync::WaitMap`: `enqueue` fails with `Duplicate` when a waiter with an equal (`==`) key is registered, else
  registers; `wake` removes one registered waiter whose key equals the given one and gives it the value, or reports
  `NoMatch` when there is none; dropping a waiter unregisters it.  The map of a client is never closed.
* `maitake_sync::WaitQueue` as used by `Stopper`: `close` is permanent and completes all waits.
* `tokio::sync::mpsc` (see `Verif.Model.Subs`); `send` waits for room and fails once the receiver is dropped.
* `tokio::select!`: polls its branches and takes one that is ready; unless `biased`, any ready branch may be taken.
-/

namespace PRpc

/-- One of the two registrations a call makes in the wait map: for its response key or for the error key. -/
structure WaitId where
  call : Nat
  err : Bool
  deriving DecidableEq, Repr

/-- A value handed to a waiter by `wake`, not yet taken by its call.  `idx` is bookkeeping of the model: the position of
the frame among the frames offered to the wait map. -/
structure Woken where
  id : WaitId
  frame : RpcFrame
  idx : Nat
  deriving DecidableEq, Repr

/-- What `send_resp_raw` returns, host_client/mod.rs 388-426: a response frame; a frame with the error key, which is then
decoded to `HostErr::Wire` or `HostErr::Postcard` (see `finish_raw`); `HostErr::Closed`; `HostErr::BadResponse`. -/
inductive CallRes where
  | Resp (f : RpcFrame) (idx : Nat)
  | ErrResp (f : RpcFrame) (idx : Nat)
  | Closed
  | BadResponse
  deriving DecidableEq, Repr

/-- Where a call stands: `begun` (send_resp 335-348: sequence number taken), `kinded` (360-365: key kind read, keys
shrunk), `half` (381: response waiter enqueued), `registered` (382: both enqueued), `waiting` (407: request accepted by
the outgoing queue), `done`, `dropped` (the future was dropped). -/
inductive Phase where
  | begun
  | kinded (k : VarKeyKind)
  | half (k : VarKeyKind)
  | registered (k : VarKeyKind)
  | waiting (k : VarKeyKind)
  | done (r : CallRes)
  | dropped
  deriving DecidableEq, Repr

/-- A call of `send_resp` (`typed`) or `send_resp_raw`.  `rqst` is the frame passed to `send_resp_raw`, before
shrinking.  `reg_at` is bookkeeping: the number of frames offered to the wait map when its first waiter was
registered. -/
structure Call where
  rqst : RpcFrame
  resp_key : Key
  typed : Bool
  phase : Phase
  reg_at : Nat
  deriving DecidableEq, Repr

/-- A call of `publish` (433-446) or `publish_raw`, host_client/mod.rs 449-460, after shrinking: still offering its frame
(`none`), or returned (`some true`: `Ok`).  `orig` is bookkeeping: the frame before shrinking. -/
structure Pub where
  orig : RpcFrame
  frame : RpcFrame
  res : Option Bool
  deriving DecidableEq, Repr

/-- Where the transmit worker stands, util.rs 153-185: waiting for a frame, inside `wire.send`, or returned. -/
inductive OutPc where
  | recv
  | sending (b : Bytes)
  | exited
  deriving DecidableEq, Repr

/-- Where the receive worker stands, util.rs 188-341: waiting for the wire; holding a frame before the table lookup;
waiting with the table locked for room in a subscription's channel; about to look in the wait map; past the `select!`,
before the clean-up; returned. -/
inductive InPc where
  | recv
  | lookup (f : RpcFrame)
  | full (f : RpcFrame) (id : Nat) (remove_mul_sub : Bool)
  | wake (f : RpcFrame)
  | purge
  | exited
  deriving DecidableEq, Repr

/-- `HostClientConfig`, util.rs 74-88; `err_key` is the hash of the error path (host_client/mod.rs 203); `zero` is
`subscriber_timeout_if_full.is_zero()`. -/
structure Cfg where
  seq_kind : VarSeqKind
  err_key : Key
  outgoing_depth : Nat
  zero : Bool

/-- The state shared by all clones of a client (`HostClient`, `HostContext`, host_client/mod.rs 177-185, 921-926), the
two workers, all calls and publications.  `out_polled` and `in_polled` say that the worker task is being polled right now,
past its check of the stopper.  `enq`, `tx` and `seen` are bookkeeping: the frames ever accepted by the outgoing queue,
the byte strings ever passed to `WireTx::send`, and the frames ever offered to the wait map. -/
structure Client where
  seq : BitVec 32
  kkind : VarKeyKind
  map : List (WaitId × VarHeader)
  woken : List Woken
  outq : List RpcFrame
  out_pc : OutPc
  out_polled : Bool
  in_pc : InPc
  in_polled : Bool
  stopped : Bool
  handles : Bool
  subs : Subs
  calls : List Call
  pubs : List Pub
  enq : List RpcFrame
  tx : List Bytes
  seen : List RpcFrame

/-- `HostClient::new_manual_priv` and `new_with_wire_and_config`, host_client/mod.rs 193-221, util.rs 125-149. -/
def Client.new : Client where
  seq := 0#32
  kkind := .Key8
  map := []
  woken := []
  outq := []
  out_pc := .recv
  out_polled := false
  in_pc := .recv
  in_polled := false
  stopped := false
  handles := true
  subs := Subs.new
  calls := []
  pubs := []
  enq := []
  tx := []
  seen := []

/-- The steps. -/
inductive Label where
  | call_begin (req resp : Key) (body : Bytes)
  | call_begin_raw (rqst : RpcFrame) (resp : Key)
  | call_kind (c : Nat)
  | call_reg_ok (c : Nat)
  | call_reg_err (c : Nat)
  | call_send (c : Nat)
  | call_closed (c : Nat)
  | call_ok (c : Nat)
  | call_err (c : Nat)
  | call_drop (c : Nat)
  | pub_begin (f : RpcFrame)
  | pub_send (p : Nat)
  | pub_closed (p : Nat)
  | close
  | drop_handles
  | out_poll
  | out_yield
  | out_recv
  | out_done (ok : Bool)
  | in_poll
  | in_yield
  | in_recv (r : Option Bytes)
  | in_lookup
  | in_full_send
  | in_full_timeout
  | in_wake (w : Option WaitId)
  | in_purge
  | sub_excl (key : Key) (depth : Nat)
  | sub_repl (key : Key) (depth : Nat)
  | sub_multi (key : Key) (depth : Nat)
  | recv_excl (id : Nat)
  | recv_multi (id : Nat)
  | drop_excl (id : Nat)
  | drop_multi (id : Nat)
  deriving DecidableEq

/-- Replace the entry of call `c`. -/
def Client.set_phase (s : Client) (c : Nat) (cl : Call) (p : Phase) : Client :=
  { s with calls := s.calls.set c { cl with phase := p } }

/-- Dropping both `Wait` futures of a call (they unregister on drop; values already handed to them are dropped too). -/
def Client.drop_waits (s : Client) (c : Nat) : Client :=
  { s with map := s.map.filter fun w => w.1.call != c, woken := s.woken.filter fun w => w.id.call != c }

/-- `Wait::enqueue` (maitake), host_client/mod.rs 381-382: `none` is `Duplicate`. -/
def map_enqueue (m : List (WaitId × VarHeader)) (id : WaitId) (h : VarHeader) : Option (List (WaitId × VarHeader)) :=
  if m.any fun w => w.2.eq h then none else some (m ++ [(id, h)])

/-- The header of the response waiter, host_client/mod.rs 362, 364, 370-373. -/
def Call.ok_hdr (cl : Call) (k : VarKeyKind) : VarHeader := ⟨(VarKey.Key8 cl.resp_key).shrink_to k, cl.rqst.header.seq_no⟩

/-- The header of the error waiter, host_client/mod.rs 363, 365, 374-377. -/
def Call.err_hdr (cfg : Cfg) (cl : Call) (k : VarKeyKind) : VarHeader :=
  ⟨(VarKey.Key8 cfg.err_key).shrink_to k, cl.rqst.header.seq_no⟩

/-- `rqst.header.key.shrink_to(kkind)`, host_client/mod.rs 361, 451. -/
def RpcFrame.shrink (f : RpcFrame) (k : VarKeyKind) : RpcFrame := ⟨⟨f.header.key.shrink_to k, f.header.seq_no⟩, f.body⟩

/-- Is the receiving end of the outgoing queue alive?  It is owned by the transmit worker (util.rs 153-158). -/
def Client.out_open (s : Client) : Bool := s.out_pc != .exited

/-- `HostClient::send_resp` up to the call of `send_resp_raw`, host_client/mod.rs 335-347: takes a sequence number; the
header always carries `VarSeq::Seq4`. -/
def send_resp_begin (s : Client) (req resp : Key) (body : Bytes) : Client :=
  { s with
    seq := s.seq + 1#32
    calls := s.calls ++ [⟨⟨⟨.Key8 req, .Seq4 s.seq⟩, body⟩, resp, true, .begun, 0⟩] }

/-- Registering the response waiter, host_client/mod.rs 381, 388-396. -/
def call_reg_ok (s : Client) (c : Nat) (cl : Call) (k : VarKeyKind) : Client :=
  match map_enqueue s.map ⟨c, false⟩ (cl.ok_hdr k) with
  | none => s.set_phase c cl (.done .BadResponse)
  | some m => { s with
      map := m
      calls := s.calls.set c { cl with phase := .half k, reg_at := s.seen.length } }

/-- Registering the error waiter, host_client/mod.rs 382, 388-396; on failure both waits are dropped. -/
def call_reg_err (cfg : Cfg) (s : Client) (c : Nat) (cl : Call) (k : VarKeyKind) : Client :=
  match map_enqueue s.map ⟨c, true⟩ (cl.err_hdr cfg k) with
  | none => (s.drop_waits c).set_phase c cl (.done .BadResponse)
  | some m => { s with map := m }.set_phase c cl (.registered k)

/-- `self.out.send(rqst).await`, host_client/mod.rs 407: fails when the transmit worker is gone, waits while the queue
is full. -/
def call_send (cfg : Cfg) (s : Client) (c : Nat) (cl : Call) (k : VarKeyKind) : Option Client :=
  if !s.out_open then some ((s.drop_waits c).set_phase c cl (.done .Closed))
  else if s.outq.length < cfg.outgoing_depth then
    some ({ s with outq := s.outq ++ [cl.rqst.shrink k], enq := s.enq ++ [cl.rqst.shrink k] }.set_phase c cl (.waiting k))
  else none

/-- The key-kind update after a response, host_client/mod.rs 413-415, 420-422. -/
def learn (kkind local_kind : VarKeyKind) (hdr : VarHeader) : VarKeyKind :=
  if hdr.key.kind ≠ local_kind then hdr.key.kind else kkind

/-- The response branch (`err = false`, 411-417) and the error branch (`err = true`, 418-425) of the `select!`. -/
def call_take (s : Client) (c : Nat) (cl : Call) (k : VarKeyKind) (err : Bool) : Option Client :=
  match s.woken.find? fun w => w.id = ⟨c, err⟩ with
  | none => none
  | some w =>
    some ({ s.drop_waits c with kkind := learn s.kkind k w.frame.header }.set_phase c cl
      (.done (if err then .ErrResp w.frame w.idx else .Resp w.frame w.idx)))

/-- `publish_raw`, host_client/mod.rs 449-454: the key kind is read and the key shrunk before the `select!`. -/
def publish_raw_begin (s : Client) (f : RpcFrame) : Client := { s with pubs := s.pubs ++ [⟨f, f.shrink s.kkind, none⟩] }

/-- The `operate_fut` branch of `publish_raw`, host_client/mod.rs 454, 458. -/
def pub_send (cfg : Cfg) (s : Client) (p : Nat) (pb : Pub) : Option Client :=
  if !s.out_open then some { s with pubs := s.pubs.set p { pb with res := some false } }
  else if s.outq.length < cfg.outgoing_depth then
    some { s with outq := s.outq ++ [pb.frame], enq := s.enq ++ [pb.frame]
                  pubs := s.pubs.set p { pb with res := some true } }
  else none

/-- The transmit worker is polled: its `select!` is `biased`, the stopper is looked at first (util.rs 160-162). -/
def out_poll (s : Client) : Option Client :=
  if s.out_pc = .exited ∨ s.out_polled then none
  else if s.stopped then some { s with out_pc := .exited, outq := [] }
  else some { s with out_polled := true }

/-- `rec.recv().await` of the transmit worker, util.rs 176-180: takes the oldest frame and starts sending it; with every
client handle dropped and the queue empty the worker returns and stops the client (163-166).  `RpcFrame::to_bytes` never
panics. -/
def out_recv (s : Client) : Option Client :=
  if s.out_pc = .recv ∧ s.out_polled then
    match s.outq with
    | f :: q =>
      match f.to_bytes with
      | .ok b => some { s with outq := q, out_pc := .sending b, tx := s.tx ++ [b] }
      | .panic => none
    | [] => if s.handles then none else some { s with out_pc := .exited, out_polled := false, stopped := true }
  else none

/-- `wire.send(..)` completes, util.rs 180-183: on an error the worker returns and stops the client (163-166). -/
def out_done (s : Client) (ok : Bool) : Option Client :=
  match s.out_pc, s.out_polled with
  | .sending _, true =>
    if ok then some { s with out_pc := .recv }
    else some { s with out_pc := .exited, out_polled := false, stopped := true, outq := [] }
  | _, _ => none

/-- The receive worker is polled: the stopper is looked at first (util.rs 199-201).  If it is stopped the inner future,
with the table lock it may hold, is dropped. -/
def in_poll (s : Client) : Option Client :=
  if s.in_pc = .purge ∨ s.in_pc = .exited ∨ s.in_polled then none
  else if s.stopped then some { s with in_pc := .purge }
  else some { s with in_polled := true }

/-- `wire.receive()` completes, util.rs 224-232: an error (`none`) ends the worker and stops the client (202-205); a
frame with a bad header is skipped.  Header decoding never panics (C03). -/
def in_recv (s : Client) (r : Option Bytes) : Option Client :=
  if s.in_pc = .recv ∧ s.in_polled then
    match r with
    | none => some { s with in_pc := .purge, in_polled := false, stopped := true }
    | some b =>
      match VarHeader.take_from_slice b with
      | .panic => none
      | .ok none => some s
      | .ok (some (hdr, body)) => some { s with in_pc := .lookup ⟨hdr, body⟩ }
  else none

/-- After the table lookup, util.rs 323-330: a handled frame is finished, any other goes to the wait map. -/
def after_lookup (s : Client) (f : RpcFrame) (handled : Bool) : Client :=
  { s with in_pc := if handled then .recv else .wake f }

/-- The table lookup, util.rs 236-321. -/
def in_lookup (cfg : Cfg) (s : Client) : Option Client :=
  match s.in_pc, s.in_polled with
  | .lookup f, true =>
    match subs_lookup cfg.zero s.subs f with
    | (.done handled, subs) => some (after_lookup { s with subs := subs } f handled)
    | (.full id rm, subs) => some { s with subs := subs, in_pc := .full f id rm }
  | _, _ => none

/-- `m.send(frame)` completes while the channel was full, util.rs 296: room appeared, or the subscription was dropped
(then the entry is removed). -/
def in_full_send (s : Client) : Option Client :=
  match s.in_pc, s.in_polled with
  | .full f id rm, true =>
    match try_send s.subs id f with
    | (.Ok, subs) => some (after_lookup { s with subs := retain_subs subs f.header.key false rm } f true)
    | (.Full, _) => none
    | (.Closed, subs) => some (after_lookup { s with subs := retain_subs subs f.header.key true rm } f true)
  | _, _ => none

/-- The timeout while waiting for room, util.rs 297-300: the message is dropped. -/
def in_full_timeout (s : Client) : Option Client :=
  match s.in_pc, s.in_polled with
  | .full f id rm, true =>
    some (after_lookup { s with subs := retain_subs (note_dropped s.subs id) f.header.key false rm } f true)
  | _, _ => none

/-- `process_did_wake`, host_client/mod.rs 952-958, called at util.rs 332-339.  `w` is the waiter woken, which must be
registered under an equal header; `none` is possible only if there is none. -/
def in_wake (s : Client) (w : Option WaitId) : Option Client :=
  match s.in_pc, s.in_polled with
  | .wake f, true =>
    match w with
    | some id =>
      if s.map.any fun x => x.1 = id && x.2.eq f.header then
        some { s with
          map := s.map.filter fun x => x.1 != id
          woken := s.woken ++ [⟨id, f, s.seen.length⟩]
          seen := s.seen ++ [f]
          in_pc := .recv }
      else none
    | none =>
      if s.map.any fun x => x.2.eq f.header then none else some { s with seen := s.seen ++ [f], in_pc := .recv }
  | _, _ => none

/-- Is the subscription table's mutex free?  Only the waiting receive worker holds it across steps. -/
def Client.lock_free (s : Client) : Bool :=
  match s.in_pc with
  | .full _ _ _ => false
  | _ => true

/-- One step. -/
def step (cfg : Cfg) (s : Client) : Label → Option Client
  | .call_begin req resp body => if s.handles then some (send_resp_begin s req resp body) else none
  | .call_begin_raw rqst resp =>
    if s.handles then some { s with calls := s.calls ++ [⟨rqst, resp, false, .begun, 0⟩] } else none
  | .call_kind c =>
    match s.calls[c]? with
    | some cl => if cl.phase = .begun then some (s.set_phase c cl (.kinded s.kkind)) else none
    | none => none
  | .call_reg_ok c =>
    match s.calls[c]? with
    | some cl => match cl.phase with
      | .kinded k => some (call_reg_ok s c cl k)
      | _ => none
    | none => none
  | .call_reg_err c =>
    match s.calls[c]? with
    | some cl => match cl.phase with
      | .half k => some (call_reg_err cfg s c cl k)
      | _ => none
    | none => none
  | .call_send c =>
    match s.calls[c]? with
    | some cl => match cl.phase with
      | .registered k => call_send cfg s c cl k
      | _ => none
    | none => none
  | .call_closed c =>
    match s.calls[c]? with
    | some cl => match cl.phase with
      | .waiting _ => if s.stopped then some ((s.drop_waits c).set_phase c cl (.done .Closed)) else none
      | _ => none
    | none => none
  | .call_ok c =>
    match s.calls[c]? with
    | some cl => match cl.phase with
      | .waiting k => call_take s c cl k false
      | _ => none
    | none => none
  | .call_err c =>
    match s.calls[c]? with
    | some cl => match cl.phase with
      | .waiting k => call_take s c cl k true
      | _ => none
    | none => none
  | .call_drop c =>
    match s.calls[c]? with
    | some cl => match cl.phase with
      | .done _ => none
      | _ => some ((s.drop_waits c).set_phase c cl .dropped)
    | none => none
  | .pub_begin f => if s.handles then some (publish_raw_begin s f) else none
  | .pub_send p =>
    match s.pubs[p]? with
    | some pb => if pb.res = none then pub_send cfg s p pb else none
    | none => none
  | .pub_closed p =>
    match s.pubs[p]? with
    | some pb =>
      if pb.res = none ∧ s.stopped then some { s with pubs := s.pubs.set p { pb with res := some false } } else none
    | none => none
  | .close => some { s with stopped := true }
  | .drop_handles => some { s with handles := false }
  | .out_poll => out_poll s
  | .out_yield => if s.out_polled then some { s with out_polled := false } else none
  | .out_recv => out_recv s
  | .out_done ok => out_done s ok
  | .in_poll => in_poll s
  | .in_yield => if s.in_polled then some { s with in_polled := false } else none
  | .in_recv r => in_recv s r
  | .in_lookup => in_lookup cfg s
  | .in_full_send => in_full_send s
  | .in_full_timeout => in_full_timeout s
  | .in_wake w => in_wake s w
  | .in_purge => if s.in_pc = .purge then some { s with in_pc := .exited, subs := subs_purge s.subs } else none
  | .sub_excl key depth =>
    if s.handles ∧ s.lock_free then some { s with subs := (subscribe_inner_exclusive s.subs key depth).2 } else none
  | .sub_repl key depth =>
    if s.handles ∧ s.lock_free then some { s with subs := (subscribe_inner s.subs key depth).2 } else none
  | .sub_multi key depth =>
    if s.handles ∧ s.lock_free then some { s with subs := (subscribe_multi_inner s.subs key depth).2 } else none
  | .recv_excl id => some { s with subs := (sub_recv s.subs id).2 }
  | .recv_multi id => some { s with subs := (multi_recv s.subs id).2 }
  | .drop_excl id => some { s with subs := sub_drop s.subs id }
  | .drop_multi id => some { s with subs := multi_drop s.subs id }

/-- A run: the labels in order. -/
def run (cfg : Cfg) : List Label → Client → Option Client
  | [], s => some s
  | l :: ls, s =>
    match step cfg s l with
    | some s => run cfg ls s
    | none => none

/-- The states a client can get into. -/
def Reachable (cfg : Cfg) (s : Client) : Prop := ∃ ls, run cfg ls Client.new = some s

/-- The end of `send_resp_raw`'s error branch (host_client/mod.rs 423-424) and of `send_resp` (348-350): what the caller
of the typed API sees, with `postcard::from_bytes` as `decode` and `decode_err`. -/
inductive HostRes (R W : Type) where
  | Ok (r : R)
  | Wire (e : W)
  | Postcard
  | Closed
  | BadResponse

/-- host_client/mod.rs 348-350 and 407-426. -/
def finish_call {R W : Type} (decode : Bytes → Option R) (decode_err : Bytes → Option W) : CallRes → HostRes R W
  | .Resp f _ => match decode f.body with
    | some r => .Ok r
    | none => .Postcard
  | .ErrResp f _ => match decode_err f.body with
    | some e => .Wire e
    | none => .Postcard
  | .Closed => .Closed
  | .BadResponse => .BadResponse

end PRpc
