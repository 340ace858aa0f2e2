import Verif.Model.Wire
/-!
Model of the host's schema report, `/repo/source/postcard-rpc/src/host_client/mod.rs` 224-321 and 973-1158.

Parameters: `hash path ty` is `Key::for_owned_schema_path` (external `postcard_schema`); `iter` is the iteration order of
the `HashSet` of types (external), any enumeration of its members; `prims` are the types `SchemaReport::default` inserts
(mod.rs 998-1036), whose schemas come from `postcard_schema`.
-/

namespace PRpc

/-- `TopicReport`, host_client/mod.rs 1044-1051. -/
structure TopicReport where
  path : Bytes
  key : Key
  ty : Nty

/-- `EndpointReport`, host_client/mod.rs 1055-1066. -/
structure EndpointReport where
  path : Bytes
  req_key : Key
  req_ty : Nty
  resp_key : Key
  resp_ty : Nty

/-- `SchemaReport`, host_client/mod.rs 974-985.  The set of types is a list of which only membership matters. -/
structure SchemaReport where
  types : List Nty
  topics_in : List TopicReport
  topics_out : List TopicReport
  endpoints : List EndpointReport

/-- `SchemaReport::default`, host_client/mod.rs 987-1040. -/
def SchemaReport.default (prims : List Nty) : SchemaReport := ⟨prims, [], [], []⟩

/-- The primitive types `SchemaReport::default` inserts, host_client/mod.rs 998-1036, in order; `sch q` is the schema of
the Rust type named there for `q`, and `vec_u8` that of `Vec<u8>`, inserted for `ByteArray` (both external).  `usize` and
`isize` are commented out (1019-1022). -/
def default_types (sch : Prim → Nty) (vec_u8 : Nty) : List Nty :=
  [sch .Bool, sch .I8, sch .U8, sch .I16, sch .I32, sch .I64, sch .I128, sch .U16, sch .U32, sch .U64, sch .U128,
   sch .F32, sch .F64, sch .Char, sch .String, vec_u8, sch .Unit, sch .Schema]

/-- `SchemaReport::add_type`, host_client/mod.rs 1074-1076. -/
def SchemaReport.add_type (r : SchemaReport) (t : Nty) : SchemaReport := { r with types := r.types ++ [t] }

/-- The search for the type of a key, host_client/mod.rs 1083-1093, 1102-1112, 1127-1133, 1138-1144. -/
def find_ty (hash : Bytes → Nty → Key) (iter : List Nty → List Nty) (types : List Nty) (path : Bytes) (key : Key) :
    Option Nty :=
  (iter types).find? fun ty => hash path ty == key

/-- `SchemaReport::add_topic_in`, host_client/mod.rs 1081-1095; `none` is `Err(UnableToFindType)`. -/
def SchemaReport.add_topic_in (hash : Bytes → Nty → Key) (iter : List Nty → List Nty) (r : SchemaReport) (path : Bytes)
    (key : Key) : Option SchemaReport :=
  match find_ty hash iter r.types path key with
  | some ty => some { r with topics_in := r.topics_in ++ [⟨path, key, ty⟩] }
  | none => none

/-- `SchemaReport::add_topic_out`, host_client/mod.rs 1100-1114. -/
def SchemaReport.add_topic_out (hash : Bytes → Nty → Key) (iter : List Nty → List Nty) (r : SchemaReport) (path : Bytes)
    (key : Key) : Option SchemaReport :=
  match find_ty hash iter r.types path key with
  | some ty => some { r with topics_out := r.topics_out ++ [⟨path, key, ty⟩] }
  | none => none

/-- `SchemaReport::add_endpoint`, host_client/mod.rs 1119-1157. -/
def SchemaReport.add_endpoint (hash : Bytes → Nty → Key) (iter : List Nty → List Nty) (r : SchemaReport) (path : Bytes)
    (req_key resp_key : Key) : Option SchemaReport :=
  match find_ty hash iter r.types path req_key with
  | none => none
  | some req_ty =>
    match find_ty hash iter r.types path resp_key with
    | none => none
    | some resp_ty => some { r with endpoints := r.endpoints ++ [⟨path, req_key, req_ty, resp_key, resp_ty⟩] }

/-- `SchemaError`, host_client/mod.rs 226-237, for communication errors of type `CE`. -/
inductive SchemaError (CE : Type) where
  | Comms (e : CE)
  | TaskError
  | InvalidReportData
  | LostData
  deriving DecidableEq, Repr

/-- What one turn of the collecting loop sees, host_client/mod.rs 259-260: a message, an error of `recv` (closed or
lagged), or 100 ms without a message. -/
inductive Collected where
  | msg (d : SchemaData)
  | rx_err
  | timeout

/-- The collecting task, host_client/mod.rs 256-266. -/
def collect : List Collected → List SchemaData
  | .msg d :: es => d :: collect es
  | _ => []

/-- First loop over the data, host_client/mod.rs 278-286: types are inserted, the rest set aside. -/
def sort_data : List SchemaData → SchemaReport → List SchemaData → SchemaReport × List SchemaData
  | [], r, et => (r, et)
  | .Type t :: ds, r, et => sort_data ds (r.add_type t) et
  | d :: ds, r, et => sort_data ds r (et ++ [d])

/-- Second loop, host_client/mod.rs 288-307; `none` inside is the error of `?`, panic is `unreachable!()`. -/
def add_all (hash : Bytes → Nty → Key) (iter : List Nty → List Nty) :
    List SchemaData → SchemaReport → Exec (Option SchemaReport)
  | [], r => .ok (some r)
  | .Type _ :: _, _ => .panic
  | .Endpoint path req resp :: ds, r =>
    match r.add_endpoint hash iter path req resp with
    | none => .ok none
    | some r => add_all hash iter ds r
  | .Topic path key .ToServer :: ds, r =>
    match r.add_topic_in hash iter path key with
    | none => .ok none
    | some r => add_all hash iter ds r
  | .Topic path key .ToClient :: ds, r =>
    match r.add_topic_out hash iter path key with
    | none => .ok none
    | some r => add_all hash iter ds r

/-- The comparison of counts, host_client/mod.rs 309-313 (`u32 as usize`; lengths are below the largest `usize`). -/
def data_matches (resp : SchemaTotals) (r : SchemaReport) : Bool :=
  resp.endpoints_sent.toNat == r.endpoints.length && resp.topics_in_sent.toNat == r.topics_in.length &&
    resp.topics_out_sent.toNat == r.topics_out.length && resp.errors.toNat == 0

/-- `HostClient::get_schema_report`, host_client/mod.rs 251-321.  `subscribed` is the success of `subscribe_multi`,
`closed` the error `HostErr::Closed`; `trigger` is the result of `send_resp`; `task` is what the collecting task saw, or
`none` if the task failed. -/
def get_schema_report {CE : Type} (closed : CE) (hash : Bytes → Nty → Key) (iter : List Nty → List Nty)
    (prims : List Nty) (subscribed : Bool) (trigger : Except CE SchemaTotals) (task : Option (List Collected)) :
    Exec (Except (SchemaError CE) SchemaReport) :=
  if !subscribed then .ok (.error (.Comms closed))
  else
    match trigger, task with
    | .ok _, none => .ok (.error .TaskError)
    | .error e, _ => .ok (.error (.Comms e))
    | .ok resp, some es => do
      let (rpt, e_and_t) := sort_data (collect es) (SchemaReport.default prims) []
      match ← add_all hash iter e_and_t rpt with
      | none => .ok (.error .InvalidReportData)
      | some rpt => if data_matches resp rpt then .ok (.ok rpt) else .ok (.error .LostData)

end PRpc
