import Verif.Spec.Raw
import Verif.Spec.UsbNext
/-! Vocabulary for C100 over a USB cable. -/

namespace PRpc.Spec

variable {V E SC Ctx : Type}

/-- As `UsedRaw`: calls, typed or raw, are of declared endpoints, publications of declared topics. -/
def UsbUsedRaw (a : App V E SC Ctx) : ULabel V → Prop
  | .client l => UsedRaw a (.client l : SLabel V)
  | .app_publish key seq v => UsedRaw a (.app_publish key seq v)
  | _ => True

end PRpc.Spec
