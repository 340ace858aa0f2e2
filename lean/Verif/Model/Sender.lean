import Verif.Model.Wire
/-!
Model of `Sender` (`/repo/source/postcard-rpc/src/server/mod.rs` 176-356).  The `Sender`'s own state is its key kind;
the wrapped `WireTx` is `Env.send`.
-/

namespace PRpc

variable {V E SC Ctx : Type}

/-- `Sender::reply`, server/mod.rs 194-203, for an endpoint with response key `resp_key`. -/
def sender_reply (env : Env V E SC) (kkind : VarKeyKind) (resp_key : Key) (seq_no : VarSeq) (resp : Body V)
    (s : St V E SC Ctx) : Option E × St V E SC Ctx :=
  let key := (VarKey.Key8 resp_key).shrink_to kkind
  wire_send env .dispatcher ⟨⟨key, seq_no⟩, resp⟩ s

/-- `Sender::reply_keyed`, server/mod.rs 210-219. -/
def sender_reply_keyed (env : Env V E SC) (kkind : VarKeyKind) (seq_no : VarSeq) (key : Key) (resp : Body V)
    (s : St V E SC Ctx) : Option E × St V E SC Ctx :=
  let key := (VarKey.Key8 key).shrink_to kkind
  wire_send env .dispatcher ⟨⟨key, seq_no⟩, resp⟩ s

/-- `Sender::publish`, server/mod.rs 223-233, for a topic with key `topic_key`. -/
def sender_publish (env : Env V E SC) (kkind : VarKeyKind) (topic_key : Key) (seq_no : VarSeq) (msg : Body V)
    (s : St V E SC Ctx) : Option E × St V E SC Ctx :=
  let key := (VarKey.Key8 topic_key).shrink_to kkind
  wire_send env .dispatcher ⟨⟨key, seq_no⟩, msg⟩ s

/-- `Sender::error`, server/mod.rs 248-255. -/
def sender_error (env : Env V E SC) (std : StdKeys) (kkind : VarKeyKind) (seq_no : VarSeq) (error : WireError)
    (s : St V E SC Ctx) : Option E × St V E SC Ctx :=
  sender_reply_keyed env kkind seq_no std.error (.err error) s

/-- The common body of the four `for` loops of `send_all_schemas`, server/mod.rs 273-284, 287-303, 306-321, 324-339:
publish, count a failure in `err_ctr`, count the message in `msg_ctr`. -/
def publish_loop (env : Env V E SC) (std : StdKeys) (kkind : VarKeyKind) :
    List SchemaData → BitVec 16 → BitVec 32 → St V E SC Ctx → Exec (BitVec 16 × BitVec 32 × St V E SC Ctx)
  | [], msg_ctr, err_ctr, s => .ok (msg_ctr, err_ctr, s)
  | d :: ds, msg_ctr, err_ctr, s => do
    let (res, s) := sender_publish env kkind std.schema_topic (.Seq2 msg_ctr) (.schema d) s
    let err_ctr ← if res.isSome then inc_u32 env.overflow_checks err_ctr else .ok err_ctr
    let msg_ctr ← inc_u16 env.overflow_checks msg_ctr
    publish_loop env std kkind ds msg_ctr err_ctr s

/-- `Sender::send_all_schemas`, server/mod.rs 258-355.  `len() as u32` truncates. -/
def send_all_schemas (env : Env V E SC) (std : StdKeys) (kkind : VarKeyKind) (hdr : VarHeader) (m : DeviceMap)
    (s : St V E SC Ctx) : Exec (Option E × St V E SC Ctx) := do
  let (msg_ctr, err_ctr, s) ← publish_loop env std kkind (m.types.map .Type) 0#16 0#32 s
  let (msg_ctr, err_ctr, s) ← publish_loop env std kkind
    (m.endpoints.map fun ep => .Endpoint ep.path ep.req ep.resp) msg_ctr err_ctr s
  let (msg_ctr, err_ctr, s) ← publish_loop env std kkind
    (m.topics_out.map fun t => .Topic t.path t.key .ToClient) msg_ctr err_ctr s
  let (_, err_ctr, s) ← publish_loop env std kkind
    (m.topics_in.map fun t => .Topic t.path t.key .ToServer) msg_ctr err_ctr s
  .ok (sender_reply env kkind std.schemas_resp hdr.seq_no
    (.totals { types_sent := BitVec.ofNat 32 m.types.length
               endpoints_sent := BitVec.ofNat 32 m.endpoints.length
               topics_in_sent := BitVec.ofNat 32 m.topics_in.length
               topics_out_sent := BitVec.ofNat 32 m.topics_out.length
               errors := err_ctr }) s)

end PRpc
