import Verif.Spec.Live
import Verif.Spec.Failed
/-! Vocabulary for C98: a host whose interface is not the one the board was built with. -/

namespace PRpc.Spec

variable {V E SC Ctx : Type}

/-- The interface a host was built with: the endpoints it calls, the topics it publishes and the topics it subscribes to. -/
structure HostIcd where
  endpoints : List EpRow
  topics_in : List TpRow
  topics_out : List TpRow

/-- The host makes typed calls of its own endpoints and publishes its own topics; the board publishes the topics it declares. -/
def HostUses (a : App V E SC Ctx) (H : HostIcd) : SLabel V → Prop
  | .client (.call_begin req resp _) => ∃ r ∈ H.endpoints, r.req = req ∧ r.resp = resp
  | .client (.call_begin_raw _ _) => False
  | .client (.pub_begin f) => ∃ t ∈ H.topics_in, f.header.key = .Key8 t.key
  | .app_publish key _ _ => ∃ t ∈ a.topic_out_list.topics, t.key = key
  | _ => True

/-- The host subscribes to its own topics, and no request is too large for the board's receive buffer. -/
def HostListens (H : HostIcd) : SLabel V → Prop
  | .client (.sub_excl key _) => ∃ t ∈ H.topics_out, t.key = key
  | .client (.sub_repl key _) => ∃ t ∈ H.topics_out, t.key = key
  | .client (.sub_multi key _) => ∃ t ∈ H.topics_out, t.key = key
  | .reject => False
  | _ => True

/-- The keys of what is sent to the board, of both versions, differ when shortened to `n` bytes. -/
def RequestsApart (a : App V E SC Ctx) (H : HostIcd) (n : Nat) : Prop :=
  ApartAt n (a.endpoint_list.endpoints.map (·.req) ++ H.endpoints.map (·.req)) (a.topic_in_list.topics.map (·.key) ++ H.topics_in.map (·.key))

/-- The keys of what is sent to the host, of both versions, differ when shortened to `n` bytes, from one another and from the key
of errors. -/
structure AnswersApart (a : App V E SC Ctx) (H : HostIcd) (n : Nat) : Prop where
  keys : ApartAt n (a.endpoint_list.endpoints.map (·.resp) ++ H.endpoints.map (·.resp))
    (a.topic_out_list.topics.map (·.key) ++ H.topics_out.map (·.key))
  errs : ∀ k ∈ (a.endpoint_list.endpoints.map (·.resp) ++ H.endpoints.map (·.resp)) ++
    (a.topic_out_list.topics.map (·.key) ++ H.topics_out.map (·.key)), short n k ≠ short n a.std.error

/-- The board's own part: `define_dispatch!` accepts the application, it uses what it declares, both sides know the same error
key, and its answers have keys that differ at the length given to `Server::new`. -/
structure SoundBoard (a : App V E SC Ctx) (S : SysCfg V E SC Ctx) : Prop where
  disp : define_dispatch a = .ok S.disp
  decl : Declared a S.kkind
  err_key : S.cfg.err_key = a.std.error
  apart : KeysApart a S
  errs : ∀ k ∈ a.endpoint_list.endpoints.map (·.resp) ++ a.topic_out_list.topics.map (·.key),
    short (keyLen S.kkind) k ≠ short (keyLen S.kkind) a.std.error

/-- Endpoints of one request have one response: neither version has an endpoint of the other with only its response changed. -/
def SameAnswers (a : App V E SC Ctx) (H : HostIcd) : Prop :=
  ∀ r ∈ a.endpoint_list.endpoints ++ H.endpoints, ∀ r' ∈ a.endpoint_list.endpoints ++ H.endpoints, r.req = r'.req → r.resp = r'.resp

/-- Request and response keys of the endpoints the board handles. -/
def handledPairs (D : Dispatcher V E SC Ctx) : List (Key × Key) :=
  [(D.std.ping_req, D.std.ping_resp), (D.std.schemas_req, D.std.schemas_resp)] ++ D.eps.map fun h => (h.req, h.resp)

end PRpc.Spec
