import Verif.Model.SchemaReport
import Verif.Spec.Dispatch
/-! What a schema report should say. -/

namespace PRpc.Spec

/-- The report lists exactly the device's endpoints and topics, with their paths and keys, in the device's order. -/
structure ListsAll (m : DeviceMap) (r : SchemaReport) : Prop where
  endpoints : r.endpoints.map (fun e => (⟨e.path, e.req_key, e.resp_key⟩ : EpRow)) = m.endpoints
  topics_in : r.topics_in.map (fun t => (⟨t.path, t.key⟩ : TpRow)) = m.topics_in
  topics_out : r.topics_out.map (fun t => (⟨t.path, t.key⟩ : TpRow)) = m.topics_out

/-- Every type given in the report is a known one (`known`) and has the key it is listed under. -/
structure Resolved (hash : Bytes → Nty → Key) (known : List Nty) (r : SchemaReport) : Prop where
  endpoints : ∀ e ∈ r.endpoints, e.req_ty ∈ known ∧ hash e.path e.req_ty = e.req_key ∧
    e.resp_ty ∈ known ∧ hash e.path e.resp_ty = e.resp_key
  topics : ∀ t ∈ r.topics_in ++ r.topics_out, t.ty ∈ known ∧ hash t.path t.ty = t.key

/-- An enumeration of a set given by its members. -/
def Enumerates (iter : List Nty → List Nty) : Prop := ∀ l t, t ∈ iter l ↔ t ∈ l

/-- The totals a device sends for map `m` when every publication went out. -/
structure TotalsFor (m : DeviceMap) (t : SchemaTotals) : Prop where
  endpoints : t.endpoints_sent.toNat = m.endpoints.length
  topics_in : t.topics_in_sent.toNat = m.topics_in.length
  topics_out : t.topics_out_sent.toNat = m.topics_out.length

/-- The data that arrived before the collecting loop saw anything but a message. -/
def arrived (es : List Collected) : List SchemaData :=
  (es.takeWhile fun | .msg _ => true | _ => false).filterMap fun | .msg d => some d | _ => none

/-- Endpoint entries among schema messages. -/
def epRows (ds : List SchemaData) : List EpRow :=
  ds.filterMap fun | .Endpoint p q s => some ⟨p, q, s⟩ | _ => none
/-- Incoming topic entries. -/
def inRows (ds : List SchemaData) : List TpRow :=
  ds.filterMap fun | .Topic p k .ToServer => some ⟨p, k⟩ | _ => none
/-- Outgoing topic entries. -/
def outRows (ds : List SchemaData) : List TpRow :=
  ds.filterMap fun | .Topic p k .ToClient => some ⟨p, k⟩ | _ => none
/-- Type entries. -/
def tyRows (ds : List SchemaData) : List Nty :=
  ds.filterMap fun | .Type t => some t | _ => none

end PRpc.Spec
