import Verif.Model.System
import Verif.Model.EUsb
import Verif.Model.Nusb
/-!
A host client and a server joined by a USB cable, packet by packet: the client of `Verif.Model.Client` over `NusbWireTx` and
`NusbWireRx` (`/repo/source/postcard-rpc/src/host_client/raw_nusb.rs` 346-511), the server of `Verif.Model.Dispatch` over
`EUsbWireTx` and `EUsbWireRx` (`/repo/source/postcard-rpc/src/server/impls/embassy_usb_v0_4.rs` 240-628).

The parts that have nothing to do with USB are those of `Verif.Model.System`: `Sys` holds them.  Its `air` here holds the IN
transfers that have completed at the host and that the client has not received yet.

Every write of a packet by the device, every packet the host puts on the bus and every packet the device reads is a step of its
own, in any order with everything else.

External: the USB bus carries the packets of an endpoint in order, 64 bytes at most each.

Simplifications:
* The device stays connected and no transfer stalls (for stalls see C46).  A send of the device may fail at each of its writes.
* Whether a send of the device will fail, and after how many bytes, is fixed when the send begins (it is arbitrary, see `Env` and
  `SysCfg.cut`); a send does not go another way.  `TxRes` of the failed send is not related to the way it fails.
* The host has `IN_FLIGHT_REQS` transfers outstanding whenever the client has not received that many completed ones.  (They are
  submitted again only with the next call of `receive`.)
* The host detected a packet size of 64 bytes.
-/

namespace PRpc

variable {V E SC Ctx : Type}

/-- Where a call of `EUsbWireRx::receive` stands, embassy_usb_v0_4.rs 594-626: in the main loop with `got` in the buffer, or in
the drain loop. -/
inductive DevRx where
  | filling (got : Bytes)
  | draining
  deriving DecidableEq

/-- What a packet does to a call of `receive`: it goes on, or returns `Ok` with a message or (`none`)
`ReceivedMessageTooLarge`; `kept` says whether the packet stays in the endpoint. -/
inductive RxStep where
  | more (s : DevRx)
  | done (r : Option Bytes) (kept : Bool)
  deriving DecidableEq

/-- One turn of the drain loop, embassy_usb_v0_4.rs 617-626. -/
def drain_step (lost : Bool) (buflen : Nat) (p : Bytes) : RxStep :=
  if p.length > buflen then .done none (!lost)
  else if p.length = 64 then .more .draining
  else .done none false

/-- One turn of the loops of `receive`, embassy_usb_v0_4.rs 594-626, on the packet `p` (`rx_loop` and `rx_drain` are the loops). -/
def rx_step (lost : Bool) (buflen : Nat) (s : DevRx) (p : Bytes) : RxStep :=
  match s with
  | .draining => drain_step lost buflen p
  | .filling got =>
    if buflen - got.length = 0 then drain_step lost buflen p
    else if p.length > buflen - got.length then .done none (!lost)
    else if p.length ≠ 64 then .done (some (got ++ p)) false
    else .more (.filling (got ++ p))

/-- A call of `send_all` under way, embassy_usb_v0_4.rs 459-507: for the frame `o` with the bytes `b`, whether the empty packet
for the frame left off before (line 480) is still to be written, how many bytes of `b` have been written, and the packets of
`b` still to be written. -/
structure Sending (V : Type) where
  o : Out V
  b : Bytes
  zlp : Bool
  out : Nat
  todo : List Bytes

/-- The packets of a frame, embassy_usb_v0_4.rs 487-497. -/
def dev_packets (b : Bytes) : List Bytes := chunks64 b ++ if (b.length &&& (64 - 1)) = 0 then [[]] else []

/-- The packets of a frame as `NusbWireTx::send_inner` submits it, raw_nusb.rs 373-384, to an endpoint with packets of 64 bytes:
those of the transfer with the frame, and an empty one. -/
def host_packets (b : Bytes) : List Bytes := chunks64 b ++ if b.length % 64 = 0 then [[]] else []

/-- The system's parts: those of `SysCfg`, the length of the server's receive buffer (server/mod.rs 404-411), what the device's
driver does with a packet that does not fit (see `rx_loop`), and how many packets the OUT endpoint holds. -/
structure UsbCfg (V E SC Ctx : Type) where
  S : SysCfg V E SC Ctx
  rxlen : Nat
  lost : Bool
  ep_cap : Nat

/-- The state: client, server and the completed IN transfers (`sys`), the packets of the host's OUT transfers not yet on the bus,
the packets in the device's OUT endpoint, the receiver, `pending_frame` (embassy_usb_v0_4.rs 244), the send under way (the mutex
of line 252 allows one) and what the host's current IN transfer holds. -/
structure UsbSys (V E SC Ctx : Type) where
  sys : Sys V E SC Ctx
  bus_out : List Bytes
  ep_out : List Bytes
  rx : DevRx
  pending_frame : Bool
  sending : Option (Sending V)
  cur : Bytes

/-- The start, embassy_usb_v0_4.rs 223-229. -/
def UsbSys.new (c : Ctx) : UsbSys V E SC Ctx := ⟨Sys.new c, [], [], .filling [], false, none, []⟩

/-- The steps. -/
inductive ULabel (V : Type) where
  | client (l : Label)
  | host_packet
  | dev_read
  | flush
  | task_reply (i : Nat) (v : V)
  | app_publish (key : Key) (seq : VarSeq) (v : V)
  | dev_write (o : WriteOut)
  | refuse

/-- A step of the client.  Taking a frame from its queue the transmit worker submits it (raw_nusb.rs 373-384; `tx` records the
frame); its send succeeds when the transfers have completed (386-399), that is, when all packets are on the bus. -/
def u_client (U : UsbCfg V E SC Ctx) (u : UsbSys V E SC Ctx) (l : Label) : Option (UsbSys V E SC Ctx) :=
  match client_step U.S u.sys l with
  | none => none
  | some s =>
    match l with
    | .out_recv => some { u with sys := s, bus_out := u.bus_out ++ (s.client.tx.drop u.sys.client.tx.length).flatMap host_packets }
    | .out_done true => if u.bus_out.length = 0 then some { u with sys := s } else none
    | _ => some { u with sys := s }

/-- The device's endpoint accepts the next packet of the host (external: USB bulk transfer). -/
def u_host_packet (U : UsbCfg V E SC Ctx) (u : UsbSys V E SC Ctx) : Option (UsbSys V E SC Ctx) :=
  match u.bus_out with
  | [] => none
  | p :: ps => if u.ep_out.length < U.ep_cap then some { u with bus_out := ps, ep_out := u.ep_out ++ [p] } else none

/-- One turn of `Server::run`, server/mod.rs 420-454, on a received message. -/
def serve_message (S : SysCfg V E SC Ctx) (s : Sys V E SC Ctx) (b : Bytes) : Option (Sys V E SC Ctx) :=
  match server_run (RE := Empty) S.tx_kind (fun e => nomatch e) (handle S.env S.disp S.kkind) [.frame b] s.srv with
  | .ok (.waiting srv) => some (s.served S true srv)
  | .ok (.tx_fatal _ _ srv) => some (s.served S false srv)
  | .ok (.rx_fatal _ _ _) => none
  | .panic => none

/-- Is the send under way one of the dispatcher's?  `Server::run` awaits it (server/mod.rs 442-443). -/
def by_dispatcher (w : Option (Sending V)) : Bool :=
  match w with
  | none => false
  | some w => match w.o.src with | .req _ => true | _ => false

/-- The server reads a packet, embassy_usb_v0_4.rs 600 and 620; if `receive` returns a message it is handled, and if the message
was too large the loop goes on (server/mod.rs 420-454). -/
def u_read (U : UsbCfg V E SC Ctx) (u : UsbSys V E SC Ctx) : Option (UsbSys V E SC Ctx) :=
  if u.sys.up = true ∧ u.sys.pending.length = 0 ∧ by_dispatcher u.sending = false then
    match u.ep_out with
    | [] => none
    | p :: ps =>
      match rx_step U.lost U.rxlen u.rx p with
      | .more r => some { u with ep_out := ps, rx := r }
      | .done (some m) kept =>
        match serve_message U.S u.sys m with
        | some s => some { u with sys := s, ep_out := if kept then p :: ps else ps, rx := .filling [] }
        | none => none
      | .done none kept =>
        some { u with
          sys := { u.sys with taken := u.sys.taken + 1, before := u.sys.before ++ [u.sys.srv.ctx] }
          ep_out := if kept then p :: ps else ps
          rx := .filling [] }
  else none

/-- A send takes the mutex and begins, embassy_usb_v0_4.rs 299-323. -/
def u_begin (U : UsbCfg V E SC Ctx) (u : UsbSys V E SC Ctx) (s : Sys V E SC Ctx) (o : Out V) : Option (UsbSys V E SC Ctx) :=
  match u.sending with
  | some _ => none
  | none =>
    match frame_bytes U.S.enc o.frame with
    | .panic => none
    | .ok b =>
      some { u with
        sys := { s with outs := s.outs ++ [o] }
        sending := some ⟨o, b, u.pending_frame, 0, dev_packets b⟩ }

/-- A send outside dispatch, as `Sys.send`. -/
def u_send (U : UsbCfg V E SC Ctx) (u : UsbSys V E SC Ctx) (src : Src) (r : Option E × St V E SC Ctx) (f : Frame V) :
    Option (UsbSys V E SC Ctx) :=
  match r.1 with
  | some _ => u_begin U u { u.sys with srv := r.2 } ⟨src, f, some (U.S.cut u.sys.srv.log f)⟩
  | none => u_begin U u { u.sys with srv := r.2 } ⟨src, f, none⟩

/-- A spawned endpoint handler replies: `Sender::reply`, server/mod.rs 194-203, as `task_reply`. -/
def u_task_reply (U : UsbCfg V E SC Ctx) (u : UsbSys V E SC Ctx) (i : Nat) (v : V) : Option (UsbSys V E SC Ctx) :=
  match u.sys.tasks[i]? with
  | none => none
  | some (_, t) =>
    match t.role with
    | .topic => none
    | .endpoint =>
      match U.S.disp.eps.find? fun h => h.name = t.name with
      | none => none
      | some h =>
        u_send U u (.task i) (sender_reply U.S.env U.S.kkind h.resp t.hdr.seq_no (.val v) u.sys.srv)
          ⟨⟨(VarKey.Key8 h.resp).shrink_to U.S.kkind, t.hdr.seq_no⟩, .val v⟩

/-- Other code of the application publishes: `Sender::publish`, server/mod.rs 223-233, as `app_publish`. -/
def u_publish (U : UsbCfg V E SC Ctx) (u : UsbSys V E SC Ctx) (key : Key) (seq : VarSeq) (v : V) : Option (UsbSys V E SC Ctx) :=
  u_send U u .app (sender_publish U.S.env U.S.kkind key seq (.val v) u.sys.srv)
    ⟨⟨(VarKey.Key8 key).shrink_to U.S.kkind, seq⟩, .val v⟩

/-- A packet arrives at the host: the current IN transfer, of `MAX_TRANSFER_SIZE` bytes (raw_nusb.rs 430-433), completes when it
is full or the packet is short (external: USB bulk transfer). -/
def host_get (u : UsbSys V E SC Ctx) (p : Bytes) : UsbSys V E SC Ctx :=
  if p.length < 64 ∨ (u.cur ++ p).length = MAX_TRANSFER_SIZE then
    { u with sys := { u.sys with air := u.sys.air ++ [u.cur ++ p] }, cur := [] }
  else { u with cur := u.cur ++ p }

/-- How many bytes of its frame a send leaves on the bus if it fails; `none` if it does not fail. -/
def Sending.fails_at (w : Sending V) : Option Nat := w.o.cut.map fun n => min n w.b.length

/-- The send under way goes on after a packet was written: the rest of `send_all`, embassy_usb_v0_4.rs 479-500. -/
def u_wrote (u : UsbSys V E SC Ctx) (w : Sending V) : UsbSys V E SC Ctx :=
  match w.todo with
  | [] => { u with pending_frame := false, sending := none }
  | _ :: _ => { u with pending_frame := true, sending := some w }

/-- One `ep_in.write(..).await` of the send under way, embassy_usb_v0_4.rs 480, 488, 495, and its outcome.  A packet leaves only
if the host has a transfer for it.  The timer (503) may end the send at any write. -/
def u_write (u : UsbSys V E SC Ctx) (o : WriteOut) : Option (UsbSys V E SC Ctx) :=
  match u.sending with
  | none => none
  | some w =>
    let room := decide (u.sys.air.length < IN_FLIGHT_REQS)
    let give := fun (gone : Bool) (p : Bytes) (w : Sending V) =>
      if w.fails_at = some w.out ∧ (gone = true → room = true) then
        let u := if gone then host_get u p else u
        some { u with pending_frame := true, sending := none }
      else none
    if w.zlp = true then
      match o with
      | .ok => if room = true then some { host_get u [] with pending_frame := true, sending := some { w with zlp := false } } else none
      | .err gone => give gone [] w
      | .cut gone => give gone [] w
    else
      match w.todo with
      | [] => none
      | p :: rest =>
        match o with
        | .ok =>
          if room = true ∧ (rest ≠ [] ∨ w.fails_at = none) then
            some (u_wrote (host_get u p) { w with out := w.out + p.length, todo := rest })
          else none
        | .err gone => give gone p { w with out := w.out + if gone then p.length else 0 }
        | .cut gone => give gone p { w with out := w.out + if gone then p.length else 0 }

/-- The send fails before its first write: the frame does not fit the transmit buffer, embassy_usb_v0_4.rs 314-322.  (It does so
when it begins; here nothing was written since.) -/
def u_refuse (u : UsbSys V E SC Ctx) : Option (UsbSys V E SC Ctx) :=
  match u.sending with
  | none => none
  | some w =>
    if w.out = 0 ∧ w.zlp = u.pending_frame ∧ w.fails_at = some 0 then some { u with sending := none } else none

/-- One step. -/
def u_step (U : UsbCfg V E SC Ctx) (u : UsbSys V E SC Ctx) : ULabel V → Option (UsbSys V E SC Ctx)
  | .client l => u_client U u l
  | .host_packet => u_host_packet U u
  | .dev_read => u_read U u
  | .flush =>
    match u.sys.pending with
    | [] => none
    | o :: rest => u_begin U u { u.sys with pending := rest } o
  | .task_reply i v => u_task_reply U u i v
  | .app_publish key seq v => u_publish U u key seq v
  | .dev_write o => u_write u o
  | .refuse => u_refuse u

/-- A run. -/
def u_run (U : UsbCfg V E SC Ctx) : List (ULabel V) → UsbSys V E SC Ctx → Option (UsbSys V E SC Ctx)
  | [], u => some u
  | l :: ls, u =>
    match u_step U u l with
    | some u' => u_run U ls u'
    | none => none

end PRpc
