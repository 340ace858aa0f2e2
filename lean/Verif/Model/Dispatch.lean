import Verif.Model.Sender
import Verif.Model.Uniques
/-!
Model of the code generated by `define_dispatch!` (`/repo/source/postcard-rpc/src/server/dispatch_macro.rs`) and of
`Server::run` (`/repo/source/postcard-rpc/src/server/mod.rs` 420-454).

Handlers are arbitrary functions.  A blocking or async endpoint handler maps context, header and request to a reply and
a new context (it is given no `Sender`, lines 61, 73).  A blocking topic handler maps to a new context (it is given the
`Sender`, line 102, but cannot await a send); an async topic handler is given the `Sender` (line 108) and is an arbitrary
program that sends frames and looks at the outcomes.
Handlers are assumed to terminate; `postcard::from_bytes` is the handler's `decode` parameter.
-/

namespace PRpc

/-- The behaviour of an async topic handler, dispatch_macro.rs 106-110: it may send frames, looking at each outcome,
and finally leaves a context. -/
inductive Prog (V E Ctx : Type) where
  | done (c : Ctx)
  | send (f : Frame V) (k : Option E → Prog V E Ctx)

/-- The endpoint flavours, dispatch_macro.rs 58-93. -/
inductive EpFlavor (V Ctx : Type) where
  | blocking (f : Ctx → VarHeader → V → V × Ctx)
  | async (f : Ctx → VarHeader → V → V × Ctx)
  | spawn

/-- The topic flavours, dispatch_macro.rs 99-116. -/
inductive TpFlavor (V E Ctx : Type) where
  | blocking (f : Ctx → VarHeader → V → Ctx)
  | async (f : Ctx → VarHeader → V → Prog V E Ctx)
  | spawn

/-- A row of the endpoint handler table, dispatch_macro.rs 232: the endpoint's keys and request decoder, the flavour
and the handler. -/
structure EpHandler (V Ctx : Type) where
  name : Nat
  req : Key
  resp : Key
  decode : Bytes → Option V
  flavor : EpFlavor V Ctx

/-- A row of the topic handler table, dispatch_macro.rs 239. -/
structure TpHandler (V E Ctx : Type) where
  name : Nat
  key : Key
  decode : Bytes → Option V
  flavor : TpFlavor V E Ctx

/-- A dispatcher instance `$app_name<N>`: the tables of the `impl Dispatch` (dispatch_macro.rs 124-214), the device map
(395-399) and `SpawnContext::spawn_ctxt` (server/mod.rs 505).  `ping_decode` is `from_bytes::<u32>`. -/
structure Dispatcher (V E SC Ctx : Type) where
  std : StdKeys
  n : VarKeyKind
  eps : List (EpHandler V Ctx)
  tps : List (TpHandler V E Ctx)
  ping_decode : Bytes → Option V
  spawn_ctxt : Ctx → SC × Ctx
  device_map : DeviceMap

variable {V E SC Ctx : Type}

/-- `<$key_ty>::try_from(&key)`, dispatch_macro.rs 145 with the key types of lines 441-464. -/
def try_key (n : VarKeyKind) (k : VarKey) : Option VarKey :=
  match n with
  | .Key1 => (Key1.try_from_varkey k).map .Key1
  | .Key2 => (Key2.try_from_varkey k).map .Key2
  | .Key4 => (Key4.try_from_varkey k).map .Key4
  | .Key8 => (Key.try_from_varkey k).map .Key8

/-- `$req_key_name` / `$topic_key_name`: the constants `REQ_KEY1` … `TOPIC_KEY` of lib.rs 378-384, 408-414, selected at
dispatch_macro.rs 441-464. -/
def key_at (n : VarKeyKind) (k : Key) : VarKey :=
  match n with
  | .Key1 => .Key1 (Key1.from_key8 k)
  | .Key2 => .Key2 (Key2.from_key8 k)
  | .Key4 => .Key4 (Key4.from_key8 k)
  | .Key8 => .Key8 k

/-- Append an event to the log (model bookkeeping). -/
def St.note (s : St V E SC Ctx) (e : Event V E SC) : St V E SC Ctx := { s with log := s.log ++ [e] }

/-- Run the program of an async topic handler. -/
def Prog.run (env : Env V E SC) : Prog V E Ctx → St V E SC Ctx → St V E SC Ctx
  | .done c, s => { s with ctx := c }
  | .send f k, s =>
    let (r, s) := wire_send env .handler f s
    (k r).run env s

/-- The blocking and async `@ep_arm`s, dispatch_macro.rs 59-81: run the handler, send the reply, and on failure of the
reply send `SerFailed`, whose outcome is the result. -/
def reply_arm (env : Env V E SC) (std : StdKeys) (kkind : VarKeyKind) (h : EpHandler V Ctx)
    (f : Ctx → VarHeader → V → V × Ctx) (hdr : VarHeader) (req : V) (s : St V E SC Ctx) :
    Option E × St V E SC Ctx :=
  let (reply, c) := f s.ctx hdr req
  let s := { s.note (.ran .endpoint h.name hdr req) with ctx := c }
  let (r, s) := sender_reply env kkind h.resp hdr.seq_no (.val reply) s
  match r with
  | some _ => sender_error env std kkind hdr.seq_no .SerFailed s
  | none => (none, s)

/-- `@ep_arm`, dispatch_macro.rs 58-93. -/
def ep_arm (env : Env V E SC) (D : Dispatcher V E SC Ctx) (kkind : VarKeyKind) (h : EpHandler V Ctx) (hdr : VarHeader)
    (req : V) (s : St V E SC Ctx) : Option E × St V E SC Ctx :=
  match h.flavor with
  | .blocking f => reply_arm env D.std kkind h f hdr req s
  | .async f => reply_arm env D.std kkind h f hdr req s
  | .spawn =>
    let (sc, c) := D.spawn_ctxt s.ctx
    let s := { s with ctx := c }
    let t : Task V SC := ⟨.endpoint, h.name, sc, hdr, req⟩
    let ok := env.spawn s.log t
    let s := s.note (.spawned t ok)
    if ok then (none, s)
    else sender_error env D.std kkind hdr.seq_no .FailedToSpawn s

/-- `@tp_arm`, dispatch_macro.rs 99-116. -/
def tp_arm (env : Env V E SC) (D : Dispatcher V E SC Ctx) (t : TpHandler V E Ctx) (hdr : VarHeader) (msg : V)
    (s : St V E SC Ctx) : St V E SC Ctx :=
  match t.flavor with
  | .blocking f => { s.note (.ran .topic t.name hdr msg) with ctx := f s.ctx hdr msg }
  | .async f => (f s.ctx hdr msg).run env (s.note (.ran .topic t.name hdr msg))
  | .spawn =>
    let (sc, c) := D.spawn_ctxt s.ctx
    let s := { s with ctx := c }
    let task : Task V SC := ⟨.topic, t.name, sc, hdr, msg⟩
    s.note (.spawned task (env.spawn s.log task))

/-- `Dispatch::handle` as generated by the `@matcher` arm, dispatch_macro.rs 138-212.  Match arms are tried in order:
ping, schema query, endpoint rows, topic rows, anything else. -/
def handle (env : Env V E SC) (D : Dispatcher V E SC Ctx) (kkind : VarKeyKind) (hdr : VarHeader) (body : Bytes)
    (s : St V E SC Ctx) : Exec (Option E × St V E SC Ctx) :=
  match try_key D.n hdr.key with
  | none => .ok (sender_error env D.std kkind hdr.seq_no .KeyTooSmall s)
  | some keyb =>
    if keyb = key_at D.n D.std.ping_req then
      match D.ping_decode body with
      | none => .ok (sender_error env D.std kkind hdr.seq_no .DeserFailed s)
      | some req => .ok (sender_reply env kkind D.std.ping_resp hdr.seq_no (.val req) s)
    else if keyb = key_at D.n D.std.schemas_req then
      send_all_schemas env D.std kkind hdr D.device_map s
    else
      match D.eps.find? (fun h => keyb = key_at D.n h.req) with
      | some h =>
        match h.decode body with
        | none => .ok (sender_error env D.std kkind hdr.seq_no .DeserFailed s)
        | some req => .ok (ep_arm env D kkind h hdr req s)
      | none =>
        match D.tps.find? (fun t => keyb = key_at D.n t.key) with
        | some t =>
          match t.decode body with
          | none => .ok (none, s)
          | some msg => .ok (none, tp_arm env D t hdr msg s)
        | none => .ok (sender_error env D.std kkind hdr.seq_no .UnknownKey s)

/-- The input of `define_dispatch!`, dispatch_macro.rs 219-244: the three lists and the two handler tables. -/
structure App (V E SC Ctx : Type) where
  std : StdKeys
  endpoint_list : EndpointMap
  topic_in_list : TopicMap
  topic_out_list : TopicMap
  eps : List (EpHandler V Ctx)
  tps : List (TpHandler V E Ctx)
  ping_decode : Bytes → Option V
  spawn_ctxt : Ctx → SC × Ctx

/-- The inputs of the `sizer` module for an application, dispatch_macro.rs 255-323. -/
def App.sizer (a : App V E SC Ctx) : SizerIn where
  endpoints := a.endpoint_list.endpoints
  topics_in := a.topic_in_list.topics
  topics_out := a.topic_out_list.topics
  handler_eps := a.eps.map fun h => (h.req, h.resp)
  handler_tps := a.tps.map fun t => t.key

/-- The expansion of `define_dispatch!`: key length (dispatch_macro.rs 255-375, 390), device map (407-432) and the
dispatcher of that key length (441-464).  `panic` is a compile-time error. -/
def define_dispatch (a : App V E SC Ctx) : Exec (Dispatcher V E SC Ctx) := do
  let sz ← needed_sz a.sizer
  let n ← kind_of_sz sz
  let types ← merge_types [a.endpoint_list.types, a.topic_in_list.types, a.topic_out_list.types]
  .ok { std := a.std, n := n, eps := a.eps, tps := a.tps, ping_decode := a.ping_decode, spawn_ctxt := a.spawn_ctxt
        device_map := { types := types
                        endpoints := a.endpoint_list.endpoints
                        topics_in := a.topic_in_list.topics
                        topics_out := a.topic_out_list.topics
                        min_key_len := n } }

/-- One outcome of `WireRx::receive`, server/mod.rs 116. -/
inductive Rx (RE : Type) where
  | frame (b : Bytes)
  | error (e : RE)

/-- Where `Server::run` stands: still waiting for input, or returned with a fatal error (`ServerError`,
server/mod.rs 377-386); `rest` is the input not looked at. -/
inductive RunRes (E RE S : Type) where
  | waiting (s : S)
  | rx_fatal (e : RE) (rest : List (Rx RE)) (s : S)
  | tx_fatal (e : E) (rest : List (Rx RE)) (s : S)

/-- `Server::run`, server/mod.rs 420-454, on the given receive outcomes, for any `Dispatch` implementation `handle`
with state `S`. -/
def server_run {E RE S : Type} (tx_kind : E → WireTxErrorKind) (rx_kind : RE → WireRxErrorKind)
    (handle : VarHeader → Bytes → S → Exec (Option E × S)) : List (Rx RE) → S → Exec (RunRes E RE S)
  | [], s => .ok (.waiting s)
  | .error e :: rest, s =>
    match rx_kind e with
    | .ConnectionClosed => .ok (.rx_fatal e rest s)
    | .ReceivedMessageTooLarge => server_run tx_kind rx_kind handle rest s
    | .Other => server_run tx_kind rx_kind handle rest s
  | .frame b :: rest, s => do
    match ← VarHeader.take_from_slice b with
    | none => server_run tx_kind rx_kind handle rest s
    | some (hdr, body) =>
      let (r, s) ← handle hdr body s
      match r with
      | none => server_run tx_kind rx_kind handle rest s
      | some e =>
        match tx_kind e with
        | .ConnectionClosed => .ok (.tx_fatal e rest s)
        | .Other => server_run tx_kind rx_kind handle rest s
        | .Timeout => .ok (.tx_fatal e rest s)

end PRpc
