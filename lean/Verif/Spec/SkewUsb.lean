import Verif.Spec.Skew
import Verif.Model.UsbSys
/-! Vocabulary for C98 over a USB cable. -/

namespace PRpc.Spec

variable {V E SC Ctx : Type}

/-- The host uses its own version's interface over the cable, the board publishes its own topics. -/
def UsbHostUses (a : App V E SC Ctx) (H : HostIcd) : ULabel V → Prop
  | .client l => HostUses a H (.client l : SLabel V)
  | .app_publish key seq v => HostUses a H (.app_publish key seq v)
  | _ => True

/-- The host subscribes to its own topics. -/
def UsbHostListens (H : HostIcd) : ULabel V → Prop
  | .client l => HostListens H (.client l : SLabel V)
  | _ => True

end PRpc.Spec
