import Verif.Model.WebSys
import Verif.Model.UsbNext
/-!
A page in a browser that opens a USB device after others, pages or host processes: `Verif.Model.WebSys` from the states
`Verif.Model.UsbNext` gives (`/repo/source/postcard-rpc/src/host_client/webusb.rs` 102-152).
-/

namespace PRpc

variable {V E SC Ctx : Type}

/-- A page has opened the device and made a client of it.  `WebUsbWire::new` (webusb.rs 102-152) opens the device (140) and claims the
interface (142), of which the device learns nothing (external: neither resets it); no transfer has failed.  The end of the page before
is that of a process, `UsbSys.next`: the browser cancels its transfers (external). -/
def WebSys.opened (u : UsbSys V E SC Ctx) : WebSys V E SC Ctx := ⟨u, false⟩

end PRpc
