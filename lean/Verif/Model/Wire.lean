import Verif.Model.Header
import Verif.Model.Schema
import Verif.Model.MinKey
/-!
Message-level vocabulary of the server side: the standard message types
(`/repo/source/postcard-rpc/src/standard_icd.rs`), frames handed to a `WireTx`, and the effects observable while a
frame is dispatched.

Serialization is external (`postcard`): a frame is modelled as its header and the *value* handed to `WireTx::send`.
Values of user message types live in an arbitrary type `V`; the standard message types have their own constructors.
-/

namespace PRpc

/-- `WireError`, standard_icd.rs 40-58 (with the payloads of `FrameTooLong` and `FrameTooShort`, 23-35). -/
inductive WireError where
  | FrameTooLong (len max : BitVec 32)
  | FrameTooShort (len : BitVec 32)
  | DeserFailed
  | SerFailed
  | UnknownKey
  | FailedToSpawn
  | KeyTooSmall
  deriving DecidableEq, Repr

/-- `TopicDirection`, lib.rs 419-424. -/
inductive TopicDirection where
  | ToServer
  | ToClient
  deriving DecidableEq, Repr

/-- `SchemaData` / `OwnedSchemaData`, standard_icd.rs 60-110 (the borrowed and owned forms have the same shape). -/
inductive SchemaData where
  | Type (t : Nty)
  | Endpoint (path : Bytes) (request_key response_key : Key)
  | Topic (path : Bytes) (key : Key) (direction : TopicDirection)

/-- `SchemaTotals`, standard_icd.rs 114-125. -/
structure SchemaTotals where
  types_sent : BitVec 32
  endpoints_sent : BitVec 32
  topics_in_sent : BitVec 32
  topics_out_sent : BitVec 32
  errors : BitVec 32
  deriving DecidableEq, Repr

/-- `DeviceMap`, lib.rs 433-444. -/
structure DeviceMap where
  types : List Nty
  endpoints : List EpRow
  topics_in : List TpRow
  topics_out : List TpRow
  min_key_len : VarKeyKind

/-- `EndpointMap`, lib.rs 452-457. -/
structure EndpointMap where
  types : List Nty
  endpoints : List EpRow

/-- `TopicMap`, lib.rs 465-472. -/
structure TopicMap where
  direction : TopicDirection
  types : List Nty
  topics : List TpRow

/-- The keys of the standard interface, standard_icd.rs 16 and 127-146.  Their values are hashes of type and path;
the model keeps them arbitrary. -/
structure StdKeys where
  error : Key
  ping_req : Key
  ping_resp : Key
  schemas_req : Key
  schemas_resp : Key
  schema_topic : Key
  logging_topic : Key

/-- The value handed to `WireTx::send` (server/mod.rs 53): a user value or one of the standard message types. -/
inductive Body (V : Type) where
  | val (v : V)
  | err (e : WireError)
  | schema (d : SchemaData)
  | totals (t : SchemaTotals)

/-- The arguments of `WireTx::send`, server/mod.rs 53. -/
structure Frame (V : Type) where
  hdr : VarHeader
  body : Body V

/-- `WireTxErrorKind`, server/mod.rs 77-86. -/
inductive WireTxErrorKind where
  | ConnectionClosed
  | Other
  | Timeout
  deriving DecidableEq, Repr

/-- `WireRxErrorKind`, server/mod.rs 122-131. -/
inductive WireRxErrorKind where
  | ConnectionClosed
  | ReceivedMessageTooLarge
  | Other
  deriving DecidableEq, Repr

/-- Which handler table a handler comes from: endpoint handlers or topic handlers (dispatch_macro.rs 227-240). -/
inductive Role where
  | endpoint
  | topic
  deriving DecidableEq, Repr

/-- A task handed to the spawn function: the handler (its table and position-independent name), the spawn context, the
header and the decoded message (dispatch_macro.rs 86, 114). -/
structure Task (V SC : Type) where
  role : Role
  name : Nat
  ctx : SC
  hdr : VarHeader
  arg : V

/-- Who called `WireTx::send`: the generated dispatcher or a topic handler that was given the `Sender`
(dispatch_macro.rs 102, 108).  Bookkeeping of the model only. -/
inductive Origin where
  | dispatcher
  | handler
  deriving DecidableEq, Repr

/-- An observable effect while frames are dispatched: a frame handed to the wire with the outcome (`none` is `Ok`), a
handler run on a decoded message, or a task handed to the spawner with the outcome. -/
inductive Event (V E SC : Type) where
  | sent (by_ : Origin) (f : Frame V) (res : Option E)
  | ran (role : Role) (name : Nat) (hdr : VarHeader) (arg : V)
  | spawned (t : Task V SC) (ok : Bool)

/-- The environment of the dispatcher: the outcome of every `send` and of every spawn may depend on everything that
happened before.  `overflow_checks` is the build profile's setting (debug: on, release: off by default). -/
structure Env (V E SC : Type) where
  send : List (Event V E SC) → Frame V → Option E
  spawn : List (Event V E SC) → Task V SC → Bool
  overflow_checks : Bool

/-- The dispatcher's mutable state: the application context and (model only) the log of effects, oldest first. -/
structure St (V E SC Ctx : Type) where
  ctx : Ctx
  log : List (Event V E SC)

variable {V E SC Ctx : Type}

/-- A call of `WireTx::send`, server/mod.rs 53. -/
def wire_send (env : Env V E SC) (o : Origin) (f : Frame V) (s : St V E SC Ctx) : Option E × St V E SC Ctx :=
  let r := env.send s.log f
  (r, { s with log := s.log ++ [.sent o f r] })

/-- `u16 += 1` with the profile's overflow behaviour (server/mod.rs 283, 302, 320, 338). -/
def inc_u16 (checks : Bool) (x : BitVec 16) : Exec (BitVec 16) :=
  if checks && x == 65535#16 then .panic else .ok (x + 1#16)

/-- `u32 += 1` with the profile's overflow behaviour (server/mod.rs 281, 299, 318, 336). -/
def inc_u32 (checks : Bool) (x : BitVec 32) : Exec (BitVec 32) :=
  if checks && x == 4294967295#32 then .panic else .ok (x + 1#32)

end PRpc
