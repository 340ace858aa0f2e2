import Verif.Spec.Dispatch
import Verif.Spec.Client
import Verif.Model.System
/-! Vocabulary for the end-to-end properties. -/

namespace PRpc.Spec

variable {V E SC Ctx : Type}

/-- The frames a topic handler's program can send. -/
inductive MaySend : Prog V E Ctx → Frame V → Prop where
  | now (f k) : MaySend (.send f k) f
  | later (f k r g) : MaySend (k r) g → MaySend (.send f k) g

/-- Typed calls of declared endpoints, publications of declared topics in both directions; anything else the client and the
server do is unrestricted. -/
def Used (a : App V E SC Ctx) : SLabel V → Prop
  | .client (.call_begin req resp _) => ∃ r ∈ a.endpoint_list.endpoints, r.req = req ∧ r.resp = resp
  | .client (.call_begin_raw _ _) => False
  | .client (.pub_begin f) => ∃ t ∈ a.topic_in_list.topics, f.header.key = .Key8 t.key
  | .app_publish key _ _ => ∃ t ∈ a.topic_out_list.topics, t.key = key
  | _ => True

/-- The same with raw calls too (`send_resp_raw`), with whatever sequence numbers, the key of a declared endpoint as `Key8` and
that endpoint's response key. -/
def UsedRaw (a : App V E SC Ctx) : SLabel V → Prop
  | .client (.call_begin req resp _) => ∃ r ∈ a.endpoint_list.endpoints, r.req = req ∧ r.resp = resp
  | .client (.call_begin_raw f resp) => ∃ r ∈ a.endpoint_list.endpoints, f.header.key = .Key8 r.req ∧ r.resp = resp
  | .client (.pub_begin f) => ∃ t ∈ a.topic_in_list.topics, f.header.key = .Key8 t.key
  | .app_publish key _ _ => ∃ t ∈ a.topic_out_list.topics, t.key = key
  | _ => True

/-- The application uses what it declares: the standard endpoints and the schema topic are listed (the default,
`omit_std = false`), handler functions are told apart by their names, and topic handlers that send frames publish declared
outgoing topics at the key length `n`. -/
structure Declared (a : App V E SC Ctx) (n : VarKeyKind) : Prop where
  ping : ∃ r ∈ a.endpoint_list.endpoints, r.req = a.std.ping_req ∧ r.resp = a.std.ping_resp
  schemas : ∃ r ∈ a.endpoint_list.endpoints, r.req = a.std.schemas_req ∧ r.resp = a.std.schemas_resp
  schema_topic : ∃ t ∈ a.topic_out_list.topics, t.key = a.std.schema_topic
  names : (a.eps.map (·.name)).Nodup
  sends : ∀ t ∈ a.tps, ∀ g, t.flavor = .async g → ∀ c hdr v fr, MaySend (g c hdr v) fr →
    ∃ r ∈ a.topic_out_list.topics, ∃ seq b, IsMsg n r.key seq b fr

/-- Shortened to `n` bytes, different keys of the two lists stay different, and no key of the first is one of the second. -/
structure ApartAt (n : Nat) (xs ys : List Key) : Prop where
  same : ∀ x ∈ xs ++ ys, ∀ y ∈ xs ++ ys, short n x = short n y → x = y
  parts : ∀ x ∈ xs, ∀ y ∈ ys, short n x ≠ short n y

/-- The keys of what the server sends, the responses of the declared endpoints and the declared outgoing topics, differ at the
key length given to `Server::new`.  (The macro checks them at the dispatcher's own key length only.)  Endpoints may share a
response key. -/
def KeysApart (a : App V E SC Ctx) (S : SysCfg V E SC Ctx) : Prop :=
  ApartAt (keyLen S.kkind) (a.endpoint_list.endpoints.map (·.resp)) (a.topic_out_list.topics.map (·.key))

/-- A send that fails leaves nothing on the link. -/
def Clean (S : SysCfg V E SC Ctx) : Prop := ∀ log f, S.cut log f = 0

/-- What the client received is the frame put on the link or, if its send failed, a beginning of it that contains its whole
header. -/
def CarriesPart (enc : Body V → Bytes) (o : Out V) (f : RpcFrame) : Prop :=
  ∃ b, IsFrame b o.frame.hdr (enc o.frame.body) ∧
    match o.cut with
    | none => IsFrame b f.header f.body
    | some n => IsFrame (b.take n) f.header f.body

/-- The frame the client received is the one put on the link. -/
def Carries (enc : Body V → Bytes) (o : Out V) (f : RpcFrame) : Prop :=
  f.header = o.frame.hdr ∧ f.body = enc o.frame.body

/-- The sequence numbers of the calls of a session, in the order in which they were begun. -/
def numbers (s : Client) : List Nat := s.calls.map fun cl => seqVal cl.rqst.header.seq_no

/-- Byte string `j` of those the client sent can be the request of call `c`, received with header `hdr`: it has the call's
sequence number and body, and its key shortened to some length.  Another call may have the same. -/
structure SentFor (s : Sys V E SC Ctx) (c : Nat) (cl : Call) (j : Nat) (hdr : VarHeader) : Prop where
  call : s.client.calls[c]? = some cl
  sent : ∃ b, s.client.tx[j]? = some b ∧ IsFrame b hdr cl.rqst.body
  key : ∃ len, keyBytes hdr.key = fold (min (keyBytes cl.rqst.header.key).length len) (keyBytes cl.rqst.header.key)
  seq : hdr.seq_no = cl.rqst.header.seq_no

/-- Byte string `j` of those the client sent is the request of call `c`, received with header `hdr`: it has the call's
sequence number and body, its key shortened to some length, and no other call has that sequence number. -/
structure RequestOf (s : Sys V E SC Ctx) (c : Nat) (cl : Call) (j : Nat) (hdr : VarHeader) : Prop where
  call : s.client.calls[c]? = some cl
  sent : ∃ b, s.client.tx[j]? = some b ∧ IsFrame b hdr cl.rqst.body
  key : ∃ len, keyBytes hdr.key = fold (min (keyBytes cl.rqst.header.key).length len) (keyBytes cl.rqst.header.key)
  seq : hdr.seq_no = cl.rqst.header.seq_no
  only : ∀ (c' : Nat) (cl' : Call), s.client.calls[c']? = some cl' →
    seqVal cl'.rqst.header.seq_no = seqVal hdr.seq_no → c' = c

/-- The frame is the reply to the request the client sent as byte string `j`, given by the handler of the endpoint with the
keys `req` and `resp` (one of the application's or a built-in one), for which its key is, on body `body`. -/
inductive ReplyTo (D : Dispatcher V E SC Ctx) (s : Sys V E SC Ctx) (j : Nat) (hdr : VarHeader) (body : Bytes) (req resp : Key) :
    Out V → Prop where
  | called (h : EpHandler V Ctx) (g : Ctx → VarHeader → V → V × Ctx) (v : V) (ctx : Ctx) (fr : Frame V) (cut : Option Nat) :
      ForEndpoint D hdr h → h.req = req → h.resp = resp → (h.flavor = .blocking g ∨ h.flavor = .async g) → h.decode body = some v →
      s.before[j]? = some ctx → fr.body = .val (g ctx hdr v).1 → ReplyTo D s j hdr body req resp ⟨.req j, fr, cut⟩
  | spawned (h : EpHandler V Ctx) (v w : V) (i : Nat) (sc : SC) (fr : Frame V) (cut : Option Nat) :
      ForEndpoint D hdr h → h.req = req → h.resp = resp → h.flavor = .spawn → h.decode body = some v → s.old ≤ i →
      s.tasks[i]? = some (j, ⟨.endpoint, h.name, sc, hdr, v⟩) → fr.body = .val w →
      ReplyTo D s j hdr body req resp ⟨.task i, fr, cut⟩
  | ping (v : V) (fr : Frame V) (cut : Option Nat) : LongEnough D hdr →
      rxShort D hdr = short (keyLen D.n) D.std.ping_req → D.std.ping_req = req → D.std.ping_resp = resp → D.ping_decode body = some v →
      fr.body = .val v → ReplyTo D s j hdr body req resp ⟨.req j, fr, cut⟩
  | schemas (t : SchemaTotals) (fr : Frame V) (cut : Option Nat) : LongEnough D hdr →
      rxShort D hdr = short (keyLen D.n) D.std.schemas_req → D.std.schemas_req = req → D.std.schemas_resp = resp →
      fr.body = .totals t → ReplyTo D s j hdr body req resp ⟨.req j, fr, cut⟩

/-- The frame is a reply to a request of an earlier client: it was sent by a task spawned for that one, for the endpoint with the
response key `resp`, and has the sequence number of that client's request. -/
structure StaleReply (D : Dispatcher V E SC Ctx) (s : Sys V E SC Ctx) (resp : Key) (o : Out V) (i j : Nat) (t : Task V SC) : Prop where
  src : o.src = .task i
  earlier : i < s.old
  task : s.tasks[i]? = some (j, t)
  role : t.role = .endpoint
  row : ∃ h ∈ D.eps, h.name = t.name ∧ h.resp = resp
  seq : o.frame.hdr.seq_no = t.hdr.seq_no
  body : ∃ v, o.frame.body = .val v

end PRpc.Spec
