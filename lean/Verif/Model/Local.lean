import Verif.Model.Client
/-!
Model of `/repo/source/postcard-rpc/src/test_utils.rs`: a client joined to a `LocalFakeServer` by two channels of capacity
`bound`, with an extra `Stopper` through which a test simulates an I/O failure.  The client is the transition system of
`Verif.Model.Client`; here its transport (`LocalRx`, `LocalTx`) decides when its receives and sends end, and how.

`tokio::sync::mpsc` (external): `send` waits while the channel is full and fails once the receiver is dropped; `recv` waits
while it is empty, and fails once it is empty with every sender dropped.
-/

namespace PRpc

/-- What a test makes the fake server say: `LocalFakeServer::reply` (test_utils.rs 53-72, `key` is `E::RESP_KEY`), `publish`
(75-94, `key` is `T::TOPIC_KEY`), or bytes sent through the public field `to_client` (36).  `data` is the message as serialized
by `postcard::to_stdvec`, whose `unwrap` is taken to succeed. -/
inductive SrvOp where
  | reply (seq : BitVec 32) (key : Key) (data : Bytes)
  | publish (seq : BitVec 32) (key : Key) (data : Bytes)
  | raw (b : Bytes)
  deriving DecidableEq, Repr

/-- The bytes put on the channel, test_utils.rs 61-69, 83-91. -/
def SrvOp.bytes : SrvOp → Exec Bytes
  | .reply seq key data => (RpcFrame.mk ⟨.Key8 key, .Seq4 seq⟩ data).to_bytes
  | .publish seq key data => (RpcFrame.mk ⟨.Key8 key, .Seq4 seq⟩ data).to_bytes
  | .raw b => .ok b

/-- `LocalError`, test_utils.rs 104-113. -/
inductive LocalErr where
  | RxClosed
  | TxClosed
  | BadFrame
  | FatalError
  deriving DecidableEq, Repr

/-- What `local_setup` (test_utils.rs 183-217) makes: the client; the channels to (`up`) and from (`down`) the server; the extra
stopper (`failed`); whether the server's ends of the channels exist; and whether the `receive` and the `send` the client's
workers are at have passed their first look at the stopper (136-138, 162-164). -/
structure Local where
  client : Client
  up : List Bytes
  down : List Bytes
  failed : Bool
  srv_rx : Bool
  srv_tx : Bool
  rx_began : Bool
  tx_began : Bool

/-- The pair at the start, test_utils.rs 187-216. -/
def Local.new : Local where
  client := Client.new
  up := []
  down := []
  failed := false
  srv_rx := true
  srv_tx := true
  rx_began := false
  tx_began := false

/-- `local_setup`, test_utils.rs 183-217: the configuration of the client it makes (`new_with_wire`, util.rs 98-119: a zero
subscriber timeout; the outgoing depth is `bound`, 207) and the pair.  `tokio::sync::mpsc::channel(0)` panics (its upper limit
on capacities is not modelled); `err_key` is the key of `E` under `err_uri_path`. -/
def local_setup (bound : Nat) (err_key : Key) : Exec (Cfg × Local) :=
  if bound = 0 then .panic else .ok (⟨.Seq2, err_key, bound, true⟩, Local.new)

/-- The steps: those of the client that do not wait for its transport; `LocalRx::receive` and `LocalTx::send` looking at the
stopper, succeeding and failing; the test's use of the server. -/
inductive LLabel where
  | client (l : Label)
  | rx_check
  | rx_msg (b : Bytes)
  | rx_err
  | tx_check
  | tx_ok
  | tx_err
  | srv_recv
  | srv_send (op : SrvOp)
  | fatal
  | drop_rx
  | drop_tx
  deriving DecidableEq

/-- `LocalFakeServer::recv_from_client`, test_utils.rs 41-50: `none` means that it waits. -/
def srv_recv (s : Local) : Option (Except LocalErr RpcFrame × Local) :=
  match s.up with
  | b :: q =>
    match VarHeader.take_from_slice b with
    | .ok (some (hdr, body)) => some (.ok ⟨hdr, body⟩, { s with up := q })
    | .ok none => some (.error .BadFrame, { s with up := q })
    | .panic => none
  | [] => if s.client.out_pc = .exited then some (.error .TxClosed, s) else none

/-- Is the client's receiving end gone?  It belongs to the receive worker's inner future (util.rs 198-206), which is dropped at
the end of the `select!`. -/
def Local.rx_gone (s : Local) : Bool :=
  match s.client.in_pc with
  | .purge => true
  | .exited => true
  | _ => false

/-- `self.to_client.send(..)`, test_utils.rs 68-71, 90-93: `none` means that it waits for room. -/
def srv_send (bound : Nat) (s : Local) (op : SrvOp) : Option (Option LocalErr × Local) :=
  match op.bytes with
  | .panic => none
  | .ok b =>
    if s.rx_gone then some (some .RxClosed, s)
    else if s.down.length < bound then some (none, { s with down := s.down ++ [b] })
    else none

/-- One step. -/
def l_step (cfg : Cfg) (bound : Nat) (s : Local) : LLabel → Option Local
  | .client l =>
    match l with
    | .in_recv _ => none
    | .out_done _ => none
    | l => (step cfg s.client l).map fun c => { s with client := c }
  -- `LocalRx::receive`, test_utils.rs 127-145: it begins, and finds the stopper not stopped
  | .rx_check =>
    if s.client.in_pc = .recv ∧ s.client.in_polled ∧ s.rx_began = false ∧ s.failed = false then some { s with rx_began := true }
    else none
  -- the `recv` branch of the `select!` (141) with a message
  | .rx_msg b =>
    match s.down with
    | [] => none
    | x :: q =>
      if s.rx_began ∧ x = b then
        (step cfg s.client (.in_recv (some b))).map fun c => { s with client := c, down := q, rx_began := false }
      else none
  -- 136-138 or 142 (`FatalError`), or 141 with the channel closed and empty
  | .rx_err =>
    if s.failed ∨ (s.rx_began ∧ s.srv_tx = false ∧ s.down = []) then
      (step cfg s.client (.in_recv none)).map fun c => { s with client := c, rx_began := false }
    else none
  -- `LocalTx::send`, test_utils.rs 152-170: it begins, and finds the stopper not stopped
  | .tx_check =>
    match s.client.out_pc with
    | .sending _ =>
      if s.client.out_polled ∧ s.tx_began = false ∧ s.failed = false then some { s with tx_began := true } else none
    | _ => none
  -- the `send` branch of the `select!` (167) with room in the channel
  | .tx_ok =>
    match s.client.out_pc with
    | .sending b =>
      if s.tx_began ∧ s.srv_rx ∧ s.up.length < bound then
        (step cfg s.client (.out_done true)).map fun c => { s with client := c, up := s.up ++ [b], tx_began := false }
      else none
    | _ => none
  -- 162-164 or 168 (`FatalError`), or 167 with the receiver dropped
  | .tx_err =>
    if s.failed ∨ (s.tx_began ∧ s.srv_rx = false) then
      (step cfg s.client (.out_done false)).map fun c => { s with client := c, tx_began := false }
    else none
  | .srv_recv => if s.srv_rx then (srv_recv s).map Prod.snd else none
  | .srv_send op => if s.srv_tx then (srv_send bound s op).map Prod.snd else none
  -- `cause_fatal_error`, test_utils.rs 97-99
  | .fatal => some { s with failed := true }
  -- the test drops `from_client` (35), `to_client` (36) or the whole server
  | .drop_rx => some { s with srv_rx := false, up := [] }
  | .drop_tx => some { s with srv_tx := false }

/-- A run. -/
def l_run (cfg : Cfg) (bound : Nat) : List LLabel → Local → Option Local
  | [], s => some s
  | l :: ls, s =>
    match l_step cfg bound s l with
    | some s => l_run cfg bound ls s
    | none => none

end PRpc
