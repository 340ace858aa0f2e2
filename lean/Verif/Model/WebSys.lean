import Verif.Model.UsbSys
/-!
A host client in a browser and a server joined by a USB cable, packet by packet: `Verif.Model.UsbSys` with `WebUsbWire`
(`/repo/source/postcard-rpc/src/host_client/webusb.rs` 154-193) in the place of `NusbWireTx` and `NusbWireRx`.

External: `transfer_out` of the browser submits one OUT transfer with the bytes given, `transfer_in` one IN transfer of the length
given, which ends with a short packet, when it is full, or with status `babble` when a packet is longer than what is left of it.

Simplifications: those of `Verif.Model.UsbSys`; and the IN transfer is outstanding whenever the receive worker waits for a message
(it is submitted when `receive` is first polled, 172-176).
-/

namespace PRpc

variable {V E SC Ctx : Type}

/-- The system, and `transfer_max_length` (webusb.rs 19). -/
structure WebCfg (V E SC Ctx : Type) where
  U : UsbCfg V E SC Ctx
  len : Nat

/-- The state, and whether the last IN transfer ended with an error. -/
structure WebSys (V E SC Ctx : Type) where
  u : UsbSys V E SC Ctx
  babble : Bool

/-- The start. -/
def WebSys.new (c : Ctx) : WebSys V E SC Ctx := ⟨UsbSys.new c, false⟩

/-- A step of the client.  `send` (webusb.rs 157-164) submits the frame as one transfer; nothing is submitted after it.  `receive`
(170-192) returns a message unless the transfer failed. -/
def w_client (W : WebCfg V E SC Ctx) (x : WebSys V E SC Ctx) (l : Label) : Option (WebSys V E SC Ctx) :=
  match l with
  | .out_recv =>
    match client_step W.U.S x.u.sys .out_recv with
    | none => none
    | some s =>
      some { x with u := { x.u with
        sys := s
        bus_out := x.u.bus_out ++ (s.client.tx.drop x.u.sys.client.tx.length).flatMap chunks64 } }
  | .in_recv (some b) => if x.babble then none else (u_client W.U x.u (.in_recv (some b))).map fun u => { x with u := u }
  | l => (u_client W.U x.u l).map fun u => { x with u := u }

/-- Is an IN transfer outstanding?  webusb.rs 172-177: one for each call of `receive`, which the worker makes when it has dealt with
the last message (host_client/util.rs 223-227). -/
def web_room (x : WebSys V E SC Ctx) : Bool :=
  !x.babble && decide (x.u.sys.air.length = 0) && decide (x.u.sys.client.in_pc = .recv)

/-- A packet arrives at the host (external). -/
def web_get (len : Nat) (x : WebSys V E SC Ctx) (p : Bytes) : WebSys V E SC Ctx :=
  if len < (x.u.cur ++ p).length then { u := { x.u with cur := [] }, babble := true }
  else if p.length < 64 ∨ (x.u.cur ++ p).length = len then
    { x with u := { x.u with sys := { x.u.sys with air := x.u.sys.air ++ [x.u.cur ++ p] }, cur := [] } }
  else { x with u := { x.u with cur := x.u.cur ++ p } }

/-- One `ep_in.write(..).await` of the send under way, embassy_usb_v0_4.rs 480, 488, 495, as `u_write`. -/
def w_write (W : WebCfg V E SC Ctx) (x : WebSys V E SC Ctx) (o : WriteOut) : Option (WebSys V E SC Ctx) :=
  match x.u.sending with
  | none => none
  | some w =>
    let give := fun (gone : Bool) (p : Bytes) (w : Sending V) =>
      if w.fails_at = some w.out ∧ (gone = true → web_room x = true) then
        let x := if gone then web_get W.len x p else x
        some { x with u := { x.u with pending_frame := true, sending := none } }
      else none
    if w.zlp = true then
      match o with
      | .ok =>
        if web_room x = true then
          let x := web_get W.len x []
          some { x with u := { x.u with pending_frame := true, sending := some { w with zlp := false } } }
        else none
      | .err gone => give gone [] w
      | .cut gone => give gone [] w
    else
      match w.todo with
      | [] => none
      | p :: rest =>
        match o with
        | .ok =>
          if web_room x = true ∧ (rest ≠ [] ∨ w.fails_at = none) then
            let x := web_get W.len x p
            some { x with u := u_wrote x.u { w with out := w.out + p.length, todo := rest } }
          else none
        | .err gone => give gone p { w with out := w.out + if gone then p.length else 0 }
        | .cut gone => give gone p { w with out := w.out + if gone then p.length else 0 }

/-- One step; the device is that of `u_step`. -/
def w_step (W : WebCfg V E SC Ctx) (x : WebSys V E SC Ctx) : ULabel V → Option (WebSys V E SC Ctx)
  | .client l => w_client W x l
  | .dev_write o => w_write W x o
  | l => (u_step W.U x.u l).map fun u => { x with u := u }

/-- A run. -/
def w_run (W : WebCfg V E SC Ctx) : List (ULabel V) → WebSys V E SC Ctx → Option (WebSys V E SC Ctx)
  | [], x => some x
  | l :: ls, x =>
    match w_step W x l with
    | some x' => w_run W ls x'
    | none => none

end PRpc
