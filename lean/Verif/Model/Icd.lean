import Verif.Model.Dispatch
/-!
Model of `endpoints!` and `topics!` (`/repo/source/postcard-rpc/src/macros.rs` 93-197, 276-384) and of the standard
interface built with them (`/repo/source/postcard-rpc/src/standard_icd.rs` 127-154).

A macro invocation is the list of its rows; the model starts from the rows, not from tokens.  A row's `Cfg` column
(`$meta`) is a Boolean: whether the attribute lets the row through.  `Key::for_path::<T>(path)` is external
(`postcard_schema`); it is a parameter `for_path` that depends on the schema of `T` and on the path, as its contract says.
-/

namespace PRpc

/-- A row of `endpoints!`, macros.rs 161: the Cfg column, request type, response type and path. -/
structure EpDecl where
  cfg : Bool
  req_ty : Nty
  resp_ty : Nty
  path : Bytes

/-- A row of `topics!`, macros.rs 351. -/
structure TpDecl where
  cfg : Bool
  msg_ty : Nty
  path : Bytes

/-- `REQ_KEY` and `RESP_KEY` of the generated `impl Endpoint`, macros.rs 186-187. -/
def EpDecl.row (for_path : Nty → Bytes → Key) (d : EpDecl) : EpRow :=
  ⟨d.path, for_path d.req_ty d.path, for_path d.resp_ty d.path⟩

/-- `TOPIC_KEY` of the generated `impl Topic`, macros.rs 373. -/
def TpDecl.row (for_path : Nty → Bytes → Key) (d : TpDecl) : TpRow := ⟨d.path, for_path d.msg_ty d.path⟩

/-- The `LISTS` constant of `@ep_tys omit_std=true`, macros.rs 99-106. -/
def ep_lists : List EpDecl → Exec (List (List Nty))
  | [] => .ok []
  | d :: ds =>
    if d.cfg then do
      let a ← unique_types d.req_ty
      let b ← unique_types d.resp_ty
      let rest ← ep_lists ds
      .ok (a :: b :: rest)
    else ep_lists ds

/-- The `LISTS` constant of `@tp_tys … omit_std=true`, macros.rs 282-287. -/
def tp_lists : List TpDecl → Exec (List (List Nty))
  | [] => .ok []
  | d :: ds =>
    if d.cfg then do
      let a ← unique_types d.msg_ty
      let rest ← tp_lists ds
      .ok (a :: rest)
    else tp_lists ds

/-- `@ep_tys omit_std=true`, macros.rs 97-113. -/
def ep_tys_omit (rows : List EpDecl) : Exec (List Nty) := do
  let lists ← ep_lists rows
  merge_types lists

/-- `@ep_eps omit_std=true`, macros.rs 133-144. -/
def ep_eps_omit (for_path : Nty → Bytes → Key) (rows : List EpDecl) : List EpRow :=
  (rows.filter (·.cfg)).map (·.row for_path)

/-- `@tp_tys … omit_std=true`, macros.rs 280-294. -/
def tp_tys_omit (rows : List TpDecl) : Exec (List Nty) := do
  let lists ← tp_lists rows
  merge_types lists

/-- `@tp_tps … omit_std=true`, macros.rs 318-328. -/
def tp_tps_omit (for_path : Nty → Bytes → Key) (rows : List TpDecl) : List TpRow :=
  (rows.filter (·.cfg)).map (·.row for_path)

/-- The rows of the standard interface, standard_icd.rs 127-154.  The message types are kept arbitrary (they come
from other crates in part).  Two of them depend on the feature `use-std`, the Boolean argument. -/
structure StdDecls where
  /-- `u32` -/
  u32_ty : Nty
  /-- `()` -/
  unit_ty : Nty
  /-- `SchemaTotals` -/
  totals_ty : Nty
  /-- `OwnedSchemaData` with the feature, `SchemaData` without -/
  schema_ty : Bool → Nty
  /-- `String` with the feature, `str` without -/
  log_ty : Bool → Nty
  /-- `"postcard-rpc/ping"` -/
  ping_path : Bytes
  /-- `"postcard-rpc/schemas/get"` -/
  schemas_path : Bytes
  /-- `"postcard-rpc/schema/data"` -/
  data_path : Bytes
  /-- `"postcard-rpc/logging"` -/
  log_path : Bytes
  /-- `WireError` -/
  error_ty : Nty
  /-- `"error"` -/
  error_path : Bytes

/-- The rows of `STANDARD_ICD_ENDPOINTS`, standard_icd.rs 132-133. -/
def StdDecls.ep_rows (d : StdDecls) : List EpDecl :=
  [⟨true, d.u32_ty, d.u32_ty, d.ping_path⟩, ⟨true, d.unit_ty, d.totals_ty, d.schemas_path⟩]

/-- The rows of `STANDARD_ICD_TOPICS_OUT`, standard_icd.rs 142-145, with `use-std` (`std = true`) or without. -/
def StdDecls.out_rows (d : StdDecls) (std : Bool) : List TpDecl :=
  [⟨!std, d.schema_ty false, d.data_path⟩, ⟨std, d.schema_ty true, d.data_path⟩, ⟨!std, d.log_ty false, d.log_path⟩,
   ⟨std, d.log_ty true, d.log_path⟩]

/-- The keys used by the dispatcher and the wire implementations: `PingEndpoint::REQ_KEY` and so on, standard_icd.rs 16
and 127-146. -/
def StdDecls.keys (for_path : Nty → Bytes → Key) (d : StdDecls) (std : Bool) : StdKeys where
  error := for_path d.error_ty d.error_path
  ping_req := for_path d.u32_ty d.ping_path
  ping_resp := for_path d.u32_ty d.ping_path
  schemas_req := for_path d.unit_ty d.schemas_path
  schemas_resp := for_path d.totals_ty d.schemas_path
  schema_topic := for_path (d.schema_ty std) d.data_path
  logging_topic := for_path (d.log_ty std) d.log_path

/-- The all-zero key used as filler, macros.rs 149, 333. -/
def NULL_KEY : Key := ⟨0#8, 0#8, 0#8, 0#8, 0#8, 0#8, 0#8, 0#8⟩

/-- `endpoints!` with its `omit_std` setting (absent means false, lines 94-96, 130-132), macros.rs 93-197. -/
def endpoints_macro (for_path : Nty → Bytes → Key) (d : StdDecls) (omit_std : Bool) (rows : List EpDecl) :
    Exec EndpointMap := do
  if omit_std then
    let types ← ep_tys_omit rows
    .ok ⟨types, ep_eps_omit for_path rows⟩
  else
    let user_tys ← ep_tys_omit rows
    let std_tys ← ep_tys_omit d.ep_rows
    let types ← merge_types [user_tys, std_tys]
    let eps ← concat_arrays ⟨[], NULL_KEY, NULL_KEY⟩ [ep_eps_omit for_path d.ep_rows, ep_eps_omit for_path rows]
    .ok ⟨types, eps⟩

/-- The standard rows for a direction, macros.rs 299-304 and 334-339 (`STANDARD_ICD_TOPICS_IN` has no rows,
standard_icd.rs 148-154). -/
def StdDecls.topic_rows (d : StdDecls) (std : Bool) : TopicDirection → List TpDecl
  | .ToServer => []
  | .ToClient => d.out_rows std

/-- `topics!` with its direction and `omit_std` setting, macros.rs 276-384. -/
def topics_macro (for_path : Nty → Bytes → Key) (d : StdDecls) (std : Bool) (dir : TopicDirection) (omit_std : Bool)
    (rows : List TpDecl) : Exec TopicMap := do
  if omit_std then
    let types ← tp_tys_omit rows
    .ok ⟨dir, types, tp_tps_omit for_path rows⟩
  else
    let user_tys ← tp_tys_omit rows
    let std_tys ← tp_tys_omit (d.topic_rows std dir)
    let types ← merge_types [std_tys, user_tys]
    let tps ← concat_arrays ⟨[], NULL_KEY⟩ [tp_tps_omit for_path (d.topic_rows std dir), tp_tps_omit for_path rows]
    .ok ⟨dir, types, tps⟩

end PRpc
