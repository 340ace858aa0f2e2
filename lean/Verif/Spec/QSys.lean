import Verif.Model.QSys
import Verif.Spec.Query
import Verif.Spec.Postcard
import Verif.Spec.Session
/-! Vocabulary for C91: a schema report asked of a connected server. -/

namespace PRpc.Spec

variable {V E SC Ctx : Type}

/-- The query is the only one to ask for the schemas, and the application does not publish on the schema topic outside it; the rest is as for
`Used`. -/
def ReportUsed (a : App V E SC Ctx) : QSLabel V → Prop
  | .query (.client (.call_begin req resp body)) => Used a (.client (V := V) (.call_begin req resp body)) ∧ req ≠ a.std.schemas_req
  | .query (.client l) => Used a (SLabel.client (V := V) l)
  | .query _ => True
  | .server (.app_publish key seq v) => Used a (.app_publish key seq v) ∧ key ≠ a.std.schema_topic
  | .server l => Used a l

/-- What the schema topic and the response of the schemas endpoint carry comes from the dispatcher: no handler of the application
sends under their keys, and no error has the key of the topic. -/
structure SchemasOwn (a : App V E SC Ctx) (n : VarKeyKind) : Prop where
  sends : ∀ t ∈ a.tps, ∀ g, t.flavor = .async g → ∀ c hdr v fr, MaySend (g c hdr v) fr →
    keyBytes fr.hdr.key ≠ short (keyLen n) a.std.schema_topic
  replies : ∀ h ∈ a.eps, h.resp ≠ a.std.schemas_resp
  ping : a.std.ping_resp ≠ a.std.schemas_resp
  error : short (keyLen n) a.std.error ≠ short (keyLen n) a.std.schema_topic

/-- The host understands the items of the device map and the totals, and takes no proper beginning of one for anything. -/
structure HostReads (Q : QSysCfg V E SC Ctx) : Prop where
  items : ∀ d ∈ schemaMsgs Q.S.disp.device_map, Understood Q.decode (Q.S.enc (.schema d)) d
  totals : ∀ t, Understood Q.decode_totals (Q.S.enc (.totals t)) t

/-- The steps of a run that are the query's and its client's. -/
def queryPart : List (QSLabel V) → List QLabel
  | [] => []
  | .query l :: ls => l :: queryPart ls
  | .server _ :: ls => queryPart ls

/-- The collecting task keeps up: at most 64 messages wait for it, and no frame belongs to two subscribed topics. -/
structure KeepsUp (qc : QCfg) (q : Query) : Prop where
  room : q.ended = false → (schemaArrivals qc q).length ≤ (arrived q.seen).length + 64
  alone : ∀ f ∈ q.client.subs.arrived, ∀ r1 ∈ q.client.subs.brxs, ∀ r2 ∈ q.client.subs.brxs,
    OfTopic r1.key f → OfTopic r2.key f → r1.key = r2.key

/-- No send of an item or of the totals failed. -/
def SchemasWhole (S : SysCfg V E SC Ctx) (s : Sys V E SC Ctx) : Prop := ∀ o ∈ s.outs ++ s.pending,
  keyBytes o.frame.hdr.key = short (keyLen S.kkind) S.disp.std.schema_topic ∨
    keyBytes o.frame.hdr.key = short (keyLen S.kkind) S.disp.std.schemas_resp → o.cut = none

/-- The device's lists fit the counters of the totals. -/
structure Countable (m : DeviceMap) : Prop where
  endpoints : m.endpoints.length < 2 ^ 32
  topics_in : m.topics_in.length < 2 ^ 32
  topics_out : m.topics_out.length < 2 ^ 32

end PRpc.Spec
