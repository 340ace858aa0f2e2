import Verif.Model.Example
import Verif.Model.Postcard
import Verif.Model.UsbSys
/-!
Model of the workbook example as a whole: the message types of `/repo/example/workbook-icd/src/lib.rs` as bytes (with `postcard`,
external, as in `Verif.Model.Postcard`), the application given to `define_dispatch!` in
`/repo/example/firmware/src/bin/comms-02.rs` 50-121, and the methods of `WorkbookClient`
(`/repo/example/workbook-host/src/client.rs` 13-117).  The handlers are those of `Verif.Model.Example`; dispatcher, server, client
and USB cable are those of the other modules.

Simplifications: the keys are hashes of paths and types (external) and arbitrary here.  Whether the mutex of the accelerometer is
held when `accelerometer_stop_handler` looks at it depends on the task that uses the accelerometer, which runs beside the
dispatcher (C81); here the context has an arbitrary sequence of answers.
-/

namespace PRpc

/-- The messages of the example, workbook-icd lib.rs 9-38. -/
inductive WbVal where
  | u32 (n : BitVec 32)
  | u64 (n : BitVec 64)
  | unit
  | led (l : SingleLed)
  | set_res (ok : Bool)
  | all (v : Vector Rgb8 24)
  | start (s : StartAccel)
  | bool (b : Bool)
  | accel (a : Acceleration)
  deriving DecidableEq

/-- Writing a `u64` (external): at most ten bytes. -/
def enc_u64 (n : BitVec 64) : Bytes := varint_loop (varint_max 8) n.toNat

/-- Reading a `u64` (external): of the tenth byte one bit counts. -/
def take_u64 : Dec (BitVec 64) := do
  let n ← take_varint (varint_max 8) 1
  pure (BitVec.ofNat 64 n)

/-- Writing an `i16` (external): the sign is moved to the lowest bit, the rest is as for a `u16`. -/
def enc_i16 (n : BitVec 16) : Bytes := varint_loop (varint_max 2) ((n <<< 1) ^^^ (n.sshiftRight 15)).toNat

/-- Writing a `bool` (external). -/
def enc_bool (b : Bool) : Bytes := if b then [1#8] else [0#8]

/-- Reading a `bool` (external): nothing but 0 and 1. -/
def take_bool : Dec Bool := do
  let x ← take_u8
  if x = 0#8 then pure false else if x = 1#8 then pure true else dec_fail

/-- `Rgb8` as written, workbook-icd lib.rs 46-51. -/
def enc_rgb (c : Rgb8) : Bytes := [c.r, c.g, c.b]

/-- `Rgb8` as read, workbook-icd lib.rs 46-51. -/
def take_rgb : Dec Rgb8 := do
  let r ← take_u8
  let g ← take_u8
  let b ← take_u8
  pure ⟨r, g, b⟩

/-- An array as written (external): its elements. -/
def enc_rgbs {n : Nat} (v : Vector Rgb8 n) : Bytes := v.toList.flatMap enc_rgb

/-- An array as read (external). -/
def take_rgbs : (n : Nat) → Dec (Vector Rgb8 n)
  | 0 => pure #v[]
  | n + 1 => do
    let v ← take_rgbs n
    let c ← take_rgb
    pure (v.push c)

/-- `SingleLed` as written, workbook-icd lib.rs 40-44. -/
def enc_led (l : SingleLed) : Bytes := enc_u32 l.position ++ enc_rgb l.rgb

/-- `SingleLed` as read, workbook-icd lib.rs 40-44. -/
def take_led : Dec SingleLed := do
  let position ← take_u32
  let rgb ← take_rgb
  pure ⟨position, rgb⟩

/-- `SingleLedSetResult` (9, 53-54) as written: `Ok(())` and `Err(BadPositionError)`. -/
def enc_set_res (ok : Bool) : Bytes := if ok then enc_u32 0#32 else enc_u32 1#32

/-- `SingleLedSetResult` as read, workbook-icd lib.rs 9, 53-54. -/
def take_set_res : Dec Bool := do
  let v ← take_u32
  if v = 0#32 then pure true else if v = 1#32 then pure false else dec_fail

/-- `AccelRange` as written, workbook-icd lib.rs 63-69. -/
def enc_range : AccelRange → Bytes
  | .G2 => enc_u32 0#32
  | .G4 => enc_u32 1#32
  | .G8 => enc_u32 2#32
  | .G16 => enc_u32 3#32

/-- `AccelRange` as read, workbook-icd lib.rs 63-69. -/
def take_range : Dec AccelRange := do
  let v ← take_u32
  if v = 0#32 then pure .G2 else if v = 1#32 then pure .G4 else if v = 2#32 then pure .G8 else if v = 3#32 then pure .G16 else dec_fail

/-- `StartAccel` as written, workbook-icd lib.rs 71-75. -/
def enc_start (s : StartAccel) : Bytes := enc_u32 s.interval_ms ++ enc_range s.range

/-- `StartAccel` as read, workbook-icd lib.rs 71-75. -/
def take_start : Dec StartAccel := do
  let interval_ms ← take_u32
  let range ← take_range
  pure ⟨interval_ms, range⟩

/-- `Acceleration` as written, workbook-icd lib.rs 56-61. -/
def enc_accel (a : Acceleration) : Bytes := enc_i16 a.x ++ (enc_i16 a.y ++ enc_i16 a.z)

/-- The messages as written. -/
def enc_wb : WbVal → Bytes
  | .u32 n => enc_u32 n
  | .u64 n => enc_u64 n
  | .unit => []
  | .led l => enc_led l
  | .set_res ok => enc_set_res ok
  | .all v => enc_rgbs v
  | .start s => enc_start s
  | .bool b => enc_bool b
  | .accel a => enc_accel a

/-- The endpoints, workbook-icd lib.rs 12-23. -/
inductive WbEp where
  | ping
  | unique_id
  | set_one
  | set_all
  | start
  | stop
  deriving DecidableEq

/-- What `endpoints!` and `topics!` make of the tables of workbook-icd (lib.rs 12-38): keys, paths and types, and the keys of the
standard interface. -/
structure WbIcd where
  std : StdKeys
  req : WbEp → Key
  resp : WbEp → Key
  path : WbEp → Bytes
  accel : TpRow
  schema_topic_path : Bytes
  logging_path : Bytes
  ep_types : List Nty
  in_types : List Nty
  out_types : List Nty

/-- `ENDPOINT_LIST`, workbook-icd lib.rs 12-23: without the standard endpoints (`omit_std = true`). -/
def WbIcd.endpoint_list (I : WbIcd) : EndpointMap where
  types := I.ep_types
  endpoints := [.ping, .unique_id, .set_one, .set_all, .start, .stop].map fun e => ⟨I.path e, I.req e, I.resp e⟩

/-- `TOPICS_IN_LIST`, workbook-icd lib.rs 25-30: empty, as is the standard list (standard_icd.rs 148-154). -/
def WbIcd.topics_in_list (I : WbIcd) : TopicMap := ⟨.ToServer, I.in_types, []⟩

/-- `TOPICS_OUT_LIST`, workbook-icd lib.rs 32-38: the standard topics (macros.rs 329-340, standard_icd.rs 136-146), then
`AccelTopic`. -/
def WbIcd.topics_out_list (I : WbIcd) : TopicMap :=
  ⟨.ToClient, I.out_types, [⟨I.schema_topic_path, I.std.schema_topic⟩, ⟨I.logging_path, I.std.logging_topic⟩, I.accel]⟩

/-- `Context`, comms-02.rs 50-55: the board; `held` is what `try_lock` finds each time it is asked, `tries` how often that was. -/
structure WbCtx where
  fw : Fw
  tries : Nat
  held : Nat → Bool

/-- The context `main` makes, comms-02.rs 158-163. -/
def wb_ctx (unique_id : BitVec 64) (held : Nat → Bool) : WbCtx := ⟨Fw.new unique_id, 0, held⟩

/-- The handler table, comms-02.rs 101-112, with the handlers of lines 196-237 and 285-292.  A handler is only given what its
`decode` returned. -/
def wb_handler (I : WbIcd) : WbEp → EpHandler WbVal WbCtx
  | .ping => ⟨0, I.req .ping, I.resp .ping, fun b => (from_bytes take_u32 b).map .u32, .blocking fun c _ v => (v, c)⟩
  | .unique_id => ⟨1, I.req .unique_id, I.resp .unique_id, fun b => (from_bytes (pure () : Dec Unit) b).map fun _ => .unit,
      .blocking fun c _ _ => (.u64 c.fw.unique_id, c)⟩
  | .set_one => ⟨2, I.req .set_one, I.resp .set_one, fun b => (from_bytes take_led b).map .led,
      .async fun c _ v => match v with
        | .led l => let (ok, fw) := set_led_handler c.fw l; (.set_res ok, { c with fw := fw })
        | v => (v, c)⟩
  | .set_all => ⟨3, I.req .set_all, I.resp .set_all, fun b => (from_bytes (take_rgbs 24) b).map .all,
      .async fun c _ v => match v with
        | .all l => (.unit, { c with fw := set_all_led_handler c.fw l })
        | v => (v, c)⟩
  | .start => ⟨4, I.req .start, I.resp .start, fun b => (from_bytes take_start b).map .start, .spawn⟩
  | .stop => ⟨5, I.req .stop, I.resp .stop, fun b => (from_bytes (pure () : Dec Unit) b).map fun _ => .unit,
      .blocking fun c _ _ =>
        let (was_busy, fw) := accelerometer_stop_handler { c.fw with locked := c.held c.tries }
        (.bool was_busy, { c with fw := fw, tries := c.tries + 1 })⟩

/-- `MyApp`, comms-02.rs 94-122, with `SpawnContext` (57-66), whose context, the accelerometer, is left out. -/
def wb_app (E : Type) (I : WbIcd) : App WbVal E Unit WbCtx where
  std := I.std
  endpoint_list := I.endpoint_list
  topic_in_list := I.topics_in_list
  topic_out_list := I.topics_out_list
  eps := [.ping, .unique_id, .set_one, .set_all, .start, .stop].map (wb_handler I)
  tps := []
  ping_decode := fun b => (from_bytes take_u32 b).map .u32
  spawn_ctxt := fun c => ((), c)

/-- The methods of `WorkbookClient`, client.rs 60-117, with their arguments, and the request of `get_schema_report`, which the
example calls on the client within (comms-02.rs of the host, line 107). -/
inductive WbMethod where
  | ping (id : BitVec 32)
  | get_id
  | set_rgb_single (position : BitVec 32) (r g b : Byte)
  | set_all_rgb_single (r g b : Byte)
  | start_accelerometer (interval_ms : BitVec 32) (range : AccelRange)
  | stop_accelerometer
  | schemas
  deriving DecidableEq

/-- Which endpoint a method calls: its request key.  `ping` calls the standard one (client.rs 4, 61). -/
def WbMethod.req (I : WbIcd) : WbMethod → Key
  | .ping _ => I.std.ping_req
  | .get_id => I.req .unique_id
  | .set_rgb_single .. => I.req .set_one
  | .set_all_rgb_single .. => I.req .set_all
  | .start_accelerometer .. => I.req .start
  | .stop_accelerometer => I.req .stop
  | .schemas => I.std.schemas_req

/-- Its response key. -/
def WbMethod.resp (I : WbIcd) : WbMethod → Key
  | .ping _ => I.std.ping_resp
  | .get_id => I.resp .unique_id
  | .set_rgb_single .. => I.resp .set_one
  | .set_all_rgb_single .. => I.resp .set_all
  | .start_accelerometer .. => I.resp .start
  | .stop_accelerometer => I.resp .stop
  | .schemas => I.std.schemas_resp

/-- The request a method sends, client.rs 61, 66, 78-81, 93, 104, 113. -/
def WbMethod.body : WbMethod → Bytes
  | .ping id => enc_u32 id
  | .get_id => []
  | .set_rgb_single position r g b => enc_led ⟨position, ⟨r, g, b⟩⟩
  | .set_all_rgb_single r g b => enc_rgbs (Vector.replicate 24 ⟨r, g, b⟩)
  | .start_accelerometer interval_ms range => enc_start ⟨interval_ms, range⟩
  | .stop_accelerometer => []
  | .schemas => []

/-- What a method returns: `Ok` with its value, `Err(WorkbookError::Endpoint(BadPositionError))` or `Err(WorkbookError::Comms(_))`
(client.rs 17-27); which `HostErr` it is, is left out. -/
inductive WbOut where
  | num (v : BitVec 32)
  | id (v : BitVec 64)
  | unit
  | bad_position
  | busy (b : Bool)
  | report (t : SchemaTotals)
  | comms
  deriving DecidableEq

/-- The `?` after `send_resp`, client.rs 61, 66, 82, 94, 105, 114, with lines 23-27. -/
def wb_question {R : Type} (f : R → WbOut) : HostRes R WireError → WbOut
  | .Ok r => f r
  | _ => .comms

/-- What a method makes of the outcome of `send_resp`, client.rs 60-117; `flatten` is lines 35-41. -/
def wb_result (m : WbMethod) (r : CallRes) : WbOut :=
  match m with
  | .ping _ => wb_question .num (finish_call (from_bytes take_u32) (from_bytes take_wire_error) r)
  | .get_id => wb_question .id (finish_call (from_bytes take_u64) (from_bytes take_wire_error) r)
  | .set_rgb_single .. =>
    wb_question (fun ok => if ok then .unit else .bad_position) (finish_call (from_bytes take_set_res) (from_bytes take_wire_error) r)
  | .set_all_rgb_single .. => wb_question (fun _ => .unit) (finish_call (from_bytes (pure () : Dec Unit)) (from_bytes take_wire_error) r)
  | .start_accelerometer .. => wb_question (fun _ => .unit) (finish_call (from_bytes (pure () : Dec Unit)) (from_bytes take_wire_error) r)
  | .stop_accelerometer => wb_question .busy (finish_call (from_bytes take_bool) (from_bytes take_wire_error) r)
  | .schemas => wb_question .report (finish_call (from_bytes take_totals) (from_bytes take_wire_error) r)

end PRpc
