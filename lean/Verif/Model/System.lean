import Verif.Model.Client
import Verif.Model.Dispatch
/-!
A host client (`Verif.Model.Client`) and a server (`Verif.Model.Dispatch`) joined by two order-preserving links, as the
channel transports join them (`/repo/source/postcard-rpc/src/host_client/test_channels.rs` 45-78,
`/repo/source/postcard-rpc/src/server/impls/test_channels.rs` 108-165, 233-279), as a labelled transition system.

The byte strings the client hands to its transport are received by the server in that order; the byte strings the server's
transport accepts are received by the client in that order.  Spawned handlers run beside the dispatcher and send their
replies whenever they like.

Simplifications:
* While the dispatcher handles one frame its own frames leave one at a time (`flush`), so frames of spawned handlers may come
  in between; the outcomes of its sends are fixed when it starts on the frame (they are arbitrary, see `Env`).
* A send of the server that fails leaves a beginning of its frame on the link, received as a message of its own (`SysCfg.cut`
  says how many bytes), or nothing.  So it is over USB: each failed send
  of `EUsbWireTx` leaves at most one such message (impls/embassy_usb_v0_4.rs 459-507, see C72).  Over the channel transports
  a failed send leaves nothing.
* A frame of the client arrives whole or is not served: a failing send of the client is its last.
* A panic of the dispatcher (possible only in the counters of `send_all_schemas`) ends the run: there is no further step.
* All `Sender`s have the key length given to `Server::new` (they are copies of the server's, server/mod.rs 404-411, 465-467).
* Code of the application outside dispatch publishes only (`app_publish`); a spawned endpoint handler replies only with
  `Sender::reply` for its own endpoint and the sequence number it was given (the documented use, server/mod.rs 192-194).
-/

namespace PRpc

variable {V E SC Ctx : Type}

/-- Who put a frame on the link (bookkeeping): the dispatcher, for the `j`-th frame received; the `i`-th task; other code. -/
inductive Src where
  | req (j : Nat)
  | task (i : Nat)
  | app
  deriving DecidableEq

/-- A frame put on the link, by whom, and how much of it if the send failed (bookkeeping). -/
structure Out (V : Type) where
  src : Src
  frame : Frame V
  cut : Option Nat

/-- The bytes of a frame, impls/test_channels.rs 161-163 (server): header, then the serialized message.  `enc` is
`postcard::to_stdvec`. -/
def frame_bytes (enc : Body V → Bytes) (f : Frame V) : Exec Bytes := do
  let hdr_ser ← f.hdr.write_to_vec
  .ok (hdr_ser ++ enc f.body)

/-- What the composed system is made of: the client's configuration, the dispatcher, the key length given to `Server::new`
(`kkind`, server/mod.rs 404-410, any), the dispatcher's environment, the classification of
its send errors, the serializer, and how many bytes of a frame its transport has put on the link when the send fails (any
function of what happened before, like the outcome of the send itself, see `Env`). -/
structure SysCfg (V E SC Ctx : Type) where
  cfg : Cfg
  disp : Dispatcher V E SC Ctx
  kkind : VarKeyKind
  env : Env V E SC
  tx_kind : E → WireTxErrorKind
  enc : Body V → Bytes
  cut : List (Event V E SC) → Frame V → Nat

/-- The state: client, server (context and log), whether `Server::run` is still running, how many of the client's frames it
has received, the dispatcher's frames not yet on the link, the tasks ever spawned with the position of the frame they were
spawned for, and the link to the client.  `before` and `outs` are bookkeeping: the context before each received frame was
handled, and all frames ever put on the link; the first `old` tasks were spawned for an earlier client. -/
structure Sys (V E SC Ctx : Type) where
  client : Client
  srv : St V E SC Ctx
  up : Bool
  taken : Nat
  pending : List (Out V)
  tasks : List (Nat × Task V SC)
  air : List Bytes
  before : List Ctx
  outs : List (Out V)
  old : Nat

/-- The start: nothing sent yet, the application context is `c`. -/
def Sys.new (c : Ctx) : Sys V E SC Ctx := ⟨Client.new, ⟨c, []⟩, true, 0, [], [], [], [], [], 0⟩

/-- A new client of the same server, once the connection of the last one has ended, over new links: `Server::run` is called again
(server/mod.rs 412-419: the server is kept; `loop { let _ = server.run().await; }`, example/firmware/src/bin/comms-02.rs 181-185).
The application context and the spawned tasks are those of before; the client starts from the beginning
(host_client/mod.rs 193-220). -/
def Sys.reconnect (s : Sys V E SC Ctx) : Sys V E SC Ctx :=
  ⟨Client.new, s.srv, true, 0, [], s.tasks, [], [], [], s.tasks.length⟩

/-- The steps of the composed system. -/
inductive SLabel (V : Type) where
  | client (l : Label)
  | serve
  | reject
  | flush
  | task_reply (i : Nat) (v : V)
  | app_publish (key : Key) (seq : VarSeq) (v : V)

/-- The frames a piece of log, coming after `log`, shows as sent, with their source; those whose send failed in part. -/
def sent_ok (cut : List (Event V E SC) → Frame V → Nat) (src : Src) (log : List (Event V E SC)) : List (Event V E SC) → List (Out V)
  | [] => []
  | .sent b f none :: es => ⟨src, f, none⟩ :: sent_ok cut src (log ++ [.sent b f none]) es
  | .sent b f (some e) :: es => ⟨src, f, some (cut log f)⟩ :: sent_ok cut src (log ++ [.sent b f (some e)]) es
  | .ran a b c d :: es => sent_ok cut src (log ++ [.ran a b c d]) es
  | .spawned t ok :: es => sent_ok cut src (log ++ [.spawned t ok]) es

/-- The tasks a piece of log shows as spawned, with the position of the frame. -/
def spawned_ok (j : Nat) : List (Event V E SC) → List (Nat × Task V SC)
  | [] => []
  | .spawned t true :: es => (j, t) :: spawned_ok j es
  | .spawned _ false :: es => spawned_ok j es
  | .sent _ _ _ :: es => spawned_ok j es
  | .ran _ _ _ _ :: es => spawned_ok j es

/-- The state after the server has handled the frame at position `s.taken`. -/
def Sys.served (S : SysCfg V E SC Ctx) (s : Sys V E SC Ctx) (up : Bool) (srv : St V E SC Ctx) : Sys V E SC Ctx :=
  let ev := srv.log.drop s.srv.log.length
  { s with
    srv := srv
    up := up
    taken := s.taken + 1
    pending := sent_ok S.cut (.req s.taken) s.srv.log ev
    tasks := s.tasks ++ spawned_ok s.taken ev
    before := s.before ++ [s.srv.ctx] }

/-- One turn of `Server::run`, server/mod.rs 420-454, on the next frame of the link. -/
def serve (S : SysCfg V E SC Ctx) (s : Sys V E SC Ctx) : Option (Sys V E SC Ctx) :=
  if s.up = true ∧ s.pending.length = 0 then
    match s.client.tx[s.taken]? with
    | none => none
    | some b =>
      match server_run (RE := Empty) S.tx_kind (fun e => nomatch e) (handle S.env S.disp S.kkind) [.frame b] s.srv with
      | .ok (.waiting srv) => some (s.served S true srv)
      | .ok (.tx_fatal _ _ srv) => some (s.served S false srv)
      | .ok (.rx_fatal _ _ _) => none
      | .panic => none
  else none

/-- The next frame of the link does not fit into the receive buffer: `receive` fails with `ReceivedMessageTooLarge`
(impls/test_channels.rs 271-273, 294) and the loop goes on (server/mod.rs 420-454). -/
def reject (s : Sys V E SC Ctx) : Option (Sys V E SC Ctx) :=
  if s.up = true ∧ s.pending.length = 0 ∧ s.taken < s.client.tx.length then
    some { s with taken := s.taken + 1, before := s.before ++ [s.srv.ctx] }
  else none

/-- What gets on the link of a frame with the bytes `b`: at most one message. -/
def Out.part (o : Out V) (b : Bytes) : List Bytes :=
  match o.cut with
  | none => [b]
  | some 0 => []
  | some n => [b.take n]

/-- Put a frame, or its beginning, on the link to the client. -/
def Sys.put (S : SysCfg V E SC Ctx) (s : Sys V E SC Ctx) (o : Out V) : Option (Sys V E SC Ctx) :=
  match frame_bytes S.enc o.frame with
  | .ok b => some { s with air := s.air ++ o.part b, outs := s.outs ++ [o] }
  | .panic => none

/-- A send outside dispatch: through the same `WireTx`; on failure a beginning gets on the link. -/
def Sys.send (S : SysCfg V E SC Ctx) (s : Sys V E SC Ctx) (src : Src) (r : Option E × St V E SC Ctx) (f : Frame V) :
    Option (Sys V E SC Ctx) :=
  match r.1 with
  | some _ => Sys.put S { s with srv := r.2 } ⟨src, f, some (S.cut s.srv.log f)⟩
  | none => Sys.put S { s with srv := r.2 } ⟨src, f, none⟩

/-- A spawned endpoint handler replies: `sender.reply::<Endpoint>(header.seq_no, &v)`, server/mod.rs 194-203, for the
endpoint of the row the task was spawned from. -/
def task_reply (S : SysCfg V E SC Ctx) (s : Sys V E SC Ctx) (i : Nat) (v : V) : Option (Sys V E SC Ctx) :=
  match s.tasks[i]? with
  | none => none
  | some (_, t) =>
    match t.role with
    | .topic => none
    | .endpoint =>
      match S.disp.eps.find? fun h => h.name = t.name with
      | none => none
      | some h =>
        Sys.send S s (.task i) (sender_reply S.env S.kkind h.resp t.hdr.seq_no (.val v) s.srv)
          ⟨⟨(VarKey.Key8 h.resp).shrink_to S.kkind, t.hdr.seq_no⟩, .val v⟩

/-- Other code of the application publishes: `Sender::publish`, server/mod.rs 223-233. -/
def app_publish (S : SysCfg V E SC Ctx) (s : Sys V E SC Ctx) (key : Key) (seq : VarSeq) (v : V) : Option (Sys V E SC Ctx) :=
  Sys.send S s .app (sender_publish S.env S.kkind key seq (.val v) s.srv)
    ⟨⟨(VarKey.Key8 key).shrink_to S.kkind, seq⟩, .val v⟩

/-- A step of the client: what it receives is the oldest byte string on the link. -/
def client_step (S : SysCfg V E SC Ctx) (s : Sys V E SC Ctx) (l : Label) : Option (Sys V E SC Ctx) :=
  match l with
  | .in_recv (some b) =>
    match s.air with
    | [] => none
    | b' :: air =>
      if b = b' then
        match step S.cfg s.client (.in_recv (some b)) with
        | some c => some { s with client := c, air := air }
        | none => none
      else none
  | l =>
    match step S.cfg s.client l with
    | some c => some { s with client := c }
    | none => none

/-- One step of the composed system. -/
def sys_step (S : SysCfg V E SC Ctx) (s : Sys V E SC Ctx) : SLabel V → Option (Sys V E SC Ctx)
  | .client l => client_step S s l
  | .serve => serve S s
  | .reject => reject s
  | .flush =>
    match s.pending with
    | [] => none
    | o :: rest => Sys.put S { s with pending := rest } o
  | .task_reply i v => task_reply S s i v
  | .app_publish key seq v => app_publish S s key seq v

/-- A run of the composed system. -/
def sys_run (S : SysCfg V E SC Ctx) : List (SLabel V) → Sys V E SC Ctx → Option (Sys V E SC Ctx)
  | [], s => some s
  | l :: ls, s =>
    match sys_step S s l with
    | some s' => sys_run S ls s'
    | none => none

end PRpc
