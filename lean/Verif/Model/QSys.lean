import Verif.Model.Query
import Verif.Model.System
/-!
`HostClient::get_schema_report` (`/repo/source/postcard-rpc/src/host_client/mod.rs` 251-321, `Verif.Model.Query`) of a client that is
connected to a server (`Verif.Model.System`): the client of the query is the client of the composed system.  The keys of
`GetAllSchemaDataTopic` and `GetAllSchemasEndpoint` (standard_icd.rs 133, 143) are the same constants on both sides.
-/

namespace PRpc

variable {V E SC Ctx : Type}

/-- The composed system and how the host decodes the items and the totals (`postcard::from_bytes`, mod.rs 260 through 870, and
348). -/
structure QSysCfg (V E SC Ctx : Type) where
  S : SysCfg V E SC Ctx
  decode : Bytes → Option SchemaData
  decode_totals : Bytes → Option SchemaTotals

/-- The query's configuration: the client's, and the keys of the standard ICD (standard_icd.rs 127-146), which the dispatcher has
too. -/
def QSysCfg.qc (Q : QSysCfg V E SC Ctx) : QCfg :=
  ⟨Q.S.cfg, Q.S.disp.std.schema_topic, Q.S.disp.std.schemas_req, Q.S.disp.std.schemas_resp, Q.decode, Q.decode_totals⟩

/-- One execution of `get_schema_report` (mod.rs 251-321) and the client and server it runs on; the client is in both (bookkeeping). -/
structure QSys (V E SC Ctx : Type) where
  q : Query
  s : Sys V E SC Ctx

/-- Before the call, on the system `s` with a client that has not done anything yet. -/
def QSys.start (s : Sys V E SC Ctx) : QSys V E SC Ctx := ⟨Query.new, s⟩

/-- The steps: of the query, of its client, and of the server. -/
inductive QSLabel (V : Type) where
  | query (l : QLabel)
  | server (l : SLabel V)

/-- One step.  A step of the client takes what it receives from the link (`client_step`); the steps of the query (mod.rs 252-267)
do not. -/
def qs_step (Q : QSysCfg V E SC Ctx) (x : QSys V E SC Ctx) : QSLabel V → Option (QSys V E SC Ctx)
  | .query (.client l) =>
    if x.q.owns l then none else (client_step Q.S x.s l).map fun s => ⟨{ x.q with client := s.client }, s⟩
  | .query l => (q_step Q.qc x.q l).map fun q => ⟨q, { x.s with client := q.client }⟩
  | .server (.client _) => none
  | .server l => (sys_step Q.S x.s l).map fun s => ⟨x.q, s⟩

/-- A run. -/
def qs_run (Q : QSysCfg V E SC Ctx) : List (QSLabel V) → QSys V E SC Ctx → Option (QSys V E SC Ctx)
  | [], x => some x
  | l :: ls, x =>
    match qs_step Q x l with
    | some x' => qs_run Q ls x'
    | none => none

end PRpc
