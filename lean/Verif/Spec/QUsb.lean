import Verif.Model.QUsb
import Verif.Spec.QSys
import Verif.Spec.UsbSys
/-! Vocabulary for C91 over a USB cable. -/

namespace PRpc.Spec

variable {V E SC Ctx : Type}

/-- As `ReportUsed`. -/
def UsbReportUsed (a : App V E SC Ctx) : QULabel V → Prop
  | .query l => ReportUsed a (.query l : QSLabel V)
  | .usb (.app_publish key seq v) => ReportUsed a (.server (.app_publish key seq v))
  | .usb _ => True

/-- The steps of a run that are the query's and its client's. -/
def usbQueryPart : List (QULabel V) → List QLabel
  | [] => []
  | .query l :: ls => l :: usbQueryPart ls
  | .usb _ :: ls => usbQueryPart ls

end PRpc.Spec
