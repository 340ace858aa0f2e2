import Verif.Model.UsbSys
/-!
A new host process on a USB device that stays connected, and a USB device that is disconnected and connected again:
`Verif.Model.UsbSys` across the end of one `HostClient` and the start of another
(`/repo/source/postcard-rpc/src/host_client/raw_nusb.rs` 81-110).
-/

namespace PRpc

variable {V E SC Ctx : Type}

/-- A host process has ended and another one has opened the device.  The operating system has cancelled the transfers of the first
(external), so packets not yet on the bus and what its IN transfers hold are gone.  The device does not notice: `ep_out.read` and
`ep_in.write` (embassy_usb_v0_4.rs 480-495, 595, 618) go on waiting, so what is in its endpoint, in the receiver's buffer (592-612) and in
the send under way stays, as do `pending_frame` (244), the answers the dispatcher is sending, the context and the spawned tasks.
(Sends that time out while there is no host are steps after this one.)  If `Server::run` had returned, the application has called it
again (example/firmware/src/bin/comms-02.rs 181-185).  The new client starts from the beginning (host_client/mod.rs 193-220).  What
counts and records messages (`taken`, `before`, `outs`, `old`) is bookkeeping, begun anew. -/
def UsbSys.next (u : UsbSys V E SC Ctx) : UsbSys V E SC Ctx where
  sys := { u.sys.reconnect with pending := u.sys.pending }
  bus_out := []
  ep_out := u.ep_out
  rx := u.rx
  pending_frame := u.pending_frame
  sending := u.sending
  cur := []

/-- The device has been disconnected and connected again, without losing power, and a host process has opened it.  `ep_out.read` and
`ep_in.write` have failed with `Disabled` (external), so `receive` has returned `ConnectionClosed` (embassy_usb_v0_4.rs 605 and
624) and what it had in the buffer is lost; the send under way, and those the dispatcher was to make, have failed with
`ConnectionClosed` (480-496), and so `Server::run` has returned (server/mod.rs 420-454) and the application called it again
(example/firmware/src/bin/comms-02.rs 181-185).  The send under way has set `pending_frame` (483) or found it set; nothing resets it.
The endpoints are empty (external).  (Sends that fail while there is no host are steps after this one.) -/
def UsbSys.replug (u : UsbSys V E SC Ctx) : UsbSys V E SC Ctx where
  sys := u.sys.reconnect
  bus_out := []
  ep_out := []
  rx := .filling []
  pending_frame := u.pending_frame || u.sending.isSome
  sending := none
  cur := []

end PRpc
