import Verif.Model.Dispatch
import Verif.Model.EUsbTx
/-!
A `Server` (`/repo/source/postcard-rpc/src/server/mod.rs` 362-454) whose transport is the embassy-usb one
(`/repo/source/postcard-rpc/src/server/impls/embassy_usb_v0_4.rs` 249-323, 580-628): the dispatcher's sends are operations of
`EUsbWireTx`, its input is what `EUsbWireRx::receive` returns.

The transmitter is shared (`EUsbWireTx` is `Copy`, lines 249-253): other code of the application may use it between any two
sends of the dispatcher.
-/

namespace PRpc

variable {V SC Ctx : Type}

/-- The transmitter as the server's environment: size of `usize`, key of the log topic, transmit buffer, the serializer
(`postcard`, external), the outcomes of the packet writes of the dispatcher's `i`-th send, and the operations other code makes
before that send. -/
structure UsbLink (V : Type) where
  w : Nat
  logging : Key
  buf : Bytes
  enc : Body V → Ser
  outs : Nat → Nat → WriteOut
  others : Nat → List (TxOp × (Nat → WriteOut))

/-- The frames handed to the transmitter, as the log shows them (bookkeeping). -/
def handed {E : Type} : List (Event V E SC) → List (Frame V)
  | [] => []
  | .sent _ f _ :: es => f :: handed es
  | .ran _ _ _ _ :: es => handed es
  | .spawned _ _ :: es => handed es

/-- All operations on the transmitter when the dispatcher hands it these frames, the first being number `i`:
`EUsbWireTx::send`, embassy_usb_v0_4.rs 299-323, and the operations of other code. -/
def usb_ops (L : UsbLink V) : Nat → List (Frame V) → List (TxOp × (Nat → WriteOut))
  | _, [] => []
  | i, f :: fs => L.others i ++ (.send f.hdr (L.enc f.body), L.outs i) :: usb_ops L (i + 1) fs

/-- `Result<(), WireTxErrorKind>` as the server sees it; `EUsbWireTx::Error` is `WireTxErrorKind`, embassy_usb_v0_4.rs 297. -/
def tx_error : TxRes → Option WireTxErrorKind
  | .Ok => none
  | .ConnectionClosed => some .ConnectionClosed
  | .Timeout => some .Timeout
  | .Other => some .Other

/-- The dispatcher's environment: a send has the result the transmitter gives after everything before it.  (Should other code
have panicked, the result is of no interest; theorems exclude it.) -/
def usb_env (L : UsbLink V) (spawn : List (Event V WireTxErrorKind SC) → Task V SC → Bool) (overflow_checks : Bool) :
    Env V WireTxErrorKind SC where
  send log f :=
    match eusb_run L.w L.logging (usb_ops L 0 (handed log ++ [f])) (EUsbTx.new L.buf) with
    | .ok (rs, _) => (rs.getLast?.getD .Other |> tx_error)
    | .panic => some .Other
  spawn := spawn
  overflow_checks := overflow_checks

/-- What `Server::run` gets from `receive` (server/mod.rs 424), until it waits; `EUsbWireRx::Error` is `WireRxErrorKind`,
embassy_usb_v0_4.rs 589. -/
def usb_inputs : List RxRes → List (Rx WireRxErrorKind)
  | [] => []
  | .Ok b :: rs => .frame b :: usb_inputs rs
  | .ReceivedMessageTooLarge :: rs => .error .ReceivedMessageTooLarge :: usb_inputs rs
  | .ConnectionClosed :: rs => .error .ConnectionClosed :: usb_inputs rs
  | .waiting :: _ => []

/-- `Server::run` (server/mod.rs 420-454) over USB: at most `calls` turns of the loop with a receive buffer of `rxlen` bytes on
the packets `q` (error kinds are their own classification, server/mod.rs 88-93, 133-138). -/
def usb_server (L : UsbLink V) (spawn : List (Event V WireTxErrorKind SC) → Task V SC → Bool) (overflow_checks : Bool)
    (D : Dispatcher V WireTxErrorKind SC Ctx) (lost : Bool) (rxlen calls : Nat) (q : List UsbIn)
    (s : St V WireTxErrorKind SC Ctx) : Exec (RunRes WireTxErrorKind WireRxErrorKind (St V WireTxErrorKind SC Ctx)) :=
  server_run id id (handle (usb_env L spawn overflow_checks) D D.n) (usb_inputs (usb_receive_all lost rxlen calls q).1) s

end PRpc
