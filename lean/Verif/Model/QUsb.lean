import Verif.Model.QSys
import Verif.Model.UsbSys
/-!
`HostClient::get_schema_report` (`/repo/source/postcard-rpc/src/host_client/mod.rs` 251-321, `Verif.Model.Query`) of a client that is
connected to a server over a USB cable (`Verif.Model.UsbSys`), as `Verif.Model.QSys` has it for links that carry whole messages.
-/

namespace PRpc

variable {V E SC Ctx : Type}

/-- The system with its cable, and how the host decodes the items and the totals (mod.rs 260 through 870, and 348). -/
structure QUsbCfg (V E SC Ctx : Type) where
  U : UsbCfg V E SC Ctx
  decode : Bytes → Option SchemaData
  decode_totals : Bytes → Option SchemaTotals

/-- The same without the cable. -/
def QUsbCfg.plain (Q : QUsbCfg V E SC Ctx) : QSysCfg V E SC Ctx := ⟨Q.U.S, Q.decode, Q.decode_totals⟩

/-- One execution of `get_schema_report` (mod.rs 251-321), and client, cable and server; the client is in both (bookkeeping). -/
structure QUsb (V E SC Ctx : Type) where
  q : Query
  u : UsbSys V E SC Ctx

/-- Before the call, on a new connection to a device whose context is `c`. -/
def QUsb.start (c : Ctx) : QUsb V E SC Ctx := ⟨Query.new, UsbSys.new c⟩

/-- The steps: of the query, of its client, and of cable and server. -/
inductive QULabel (V : Type) where
  | query (l : QLabel)
  | usb (l : ULabel V)

/-- One step.  A step of the client may use the cable (`u_client`); the steps of the query (mod.rs 252-267) do not. -/
def qu_step (Q : QUsbCfg V E SC Ctx) (x : QUsb V E SC Ctx) : QULabel V → Option (QUsb V E SC Ctx)
  | .query (.client l) =>
    if x.q.owns l then none else (u_client Q.U x.u l).map fun u => ⟨{ x.q with client := u.sys.client }, u⟩
  | .query l => (q_step Q.plain.qc x.q l).map fun q => ⟨q, { x.u with sys := { x.u.sys with client := q.client } }⟩
  | .usb (.client _) => none
  | .usb l => (u_step Q.U x.u l).map fun u => ⟨x.q, u⟩

/-- A run. -/
def qu_run (Q : QUsbCfg V E SC Ctx) : List (QULabel V) → QUsb V E SC Ctx → Option (QUsb V E SC Ctx)
  | [], x => some x
  | l :: ls, x =>
    match qu_step Q x l with
    | some x' => qu_run Q ls x'
    | none => none

end PRpc
