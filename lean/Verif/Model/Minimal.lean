import Verif.Model.Workbook
/-!
Model of the firmware `/repo/example/firmware/src/bin/minimal.rs`, which answers nothing but what every server does, joined by the
client, the server and the USB cable of `Verif.Model.UsbSys`.

Its `main` (75-100), `usb_task` (113-116) and `server_task` (102-110) set up what `Verif.Model.UsbSys` starts with and run it; the
configuration of the device (`usb_config`, 36-50) has no part in the protocol.
-/

namespace PRpc

/-- `MyApp`, minimal.rs 52-73: the lists of workbook-icd, and no handler for anything in them.  `Context` (23) has no fields.  The values are those
of the interface, so that the same client can be run with it; the only one the firmware knows is the number of a ping. -/
def min_app (E : Type) (I : WbIcd) : App WbVal E Unit Unit where
  std := I.std
  endpoint_list := I.endpoint_list
  topic_in_list := I.topics_in_list
  topic_out_list := I.topics_out_list
  eps := []
  tps := []
  ping_decode := fun b => (from_bytes take_u32 b).map .u32
  spawn_ctxt := fun c => ((), c)

end PRpc
