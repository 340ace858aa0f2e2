import Verif.Spec.UsbServer
/-! Vocabulary for C86: what a host gets back from a server over USB, answers that cannot be sent included. -/

namespace PRpc.Spec

variable {V E SC Ctx : Type}

/-- The frame cannot be sent: it cannot be serialized, or it does not fit into the transmit buffer of `cap` bytes. -/
def TooBig (cap : Nat) (enc : Body V → Ser) (fr : Frame V) : Prop :=
  (enc fr.body).fails = true ∨ cap < (layout fr.hdr).length + (enc fr.body).bytes.length

/-- `Reported D cap enc i ds frs k`: of the schema items `ds`, the first being message number `i`, those that can be sent are sent
as `frs`; `k` cannot. -/
inductive Reported (D : Dispatcher V E SC Ctx) (cap : Nat) (enc : Body V → Ser) : Nat → List SchemaData → List (Frame V) → Nat → Prop where
  | nil {i} : Reported D cap enc i [] [] 0
  | sent {i d ds fr frs k} : IsMsg D.n D.std.schema_topic (.Seq2 (BitVec.ofNat 16 i)) (.schema d) fr → Sendable cap enc fr →
      Reported D cap enc (i + 1) ds frs k → Reported D cap enc i (d :: ds) (fr :: frs) k
  | lost {i d ds fr frs k} : IsMsg D.n D.std.schema_topic (.Seq2 (BitVec.ofNat 16 i)) (.schema d) fr → TooBig cap enc fr →
      Reported D cap enc (i + 1) ds frs k → Reported D cap enc i (d :: ds) frs (k + 1)

/-- `MustAnswer D cap enc c bs frs c'`: from a server with context `c` that receives the byte strings `bs` one after the other over
a transport that refuses what cannot be sent, the host has to get exactly the frames `frs`; the server is left with context `c'`.
(All requests but those for spawned endpoint handlers and asynchronous topic handlers.) -/
inductive MustAnswer (D : Dispatcher V E SC Ctx) (cap : Nat) (enc : Body V → Ser) : Ctx → List Bytes → List (Frame V) → Ctx → Prop where
  | nil {c} : MustAnswer D cap enc c [] [] c
  | reply {c c' b bs hdr body h f v fr frs} : IsFrame b hdr body → ForEndpoint D hdr h →
      (h.flavor = .blocking f ∨ h.flavor = .async f) → h.decode body = some v →
      IsMsg D.n h.resp hdr.seq_no (.val (f c hdr v).1) fr → Sendable cap enc fr →
      MustAnswer D cap enc (f c hdr v).2 bs frs c' → MustAnswer D cap enc c (b :: bs) (fr :: frs) c'
  | replyTooBig {c c' b bs hdr body h f v fr fr' frs} : IsFrame b hdr body → ForEndpoint D hdr h →
      (h.flavor = .blocking f ∨ h.flavor = .async f) → h.decode body = some v →
      IsMsg D.n h.resp hdr.seq_no (.val (f c hdr v).1) fr → TooBig cap enc fr →
      IsMsg D.n D.std.error hdr.seq_no (.err .SerFailed) fr' → Sendable cap enc fr' →
      MustAnswer D cap enc (f c hdr v).2 bs frs c' → MustAnswer D cap enc c (b :: bs) (fr' :: frs) c'
  | undecodable {c c' b bs hdr body h fr frs} : IsFrame b hdr body → ForEndpoint D hdr h → h.decode body = none →
      IsMsg D.n D.std.error hdr.seq_no (.err .DeserFailed) fr → Sendable cap enc fr →
      MustAnswer D cap enc c bs frs c' → MustAnswer D cap enc c (b :: bs) (fr :: frs) c'
  | ping {c c' b bs hdr body v fr frs} : IsFrame b hdr body → LongEnough D hdr →
      rxShort D hdr = short (keyLen D.n) D.std.ping_req → D.ping_decode body = some v →
      IsMsg D.n D.std.ping_resp hdr.seq_no (.val v) fr → Sendable cap enc fr →
      MustAnswer D cap enc c bs frs c' → MustAnswer D cap enc c (b :: bs) (fr :: frs) c'
  | pingUndecodable {c c' b bs hdr body fr frs} : IsFrame b hdr body → LongEnough D hdr →
      rxShort D hdr = short (keyLen D.n) D.std.ping_req → D.ping_decode body = none →
      IsMsg D.n D.std.error hdr.seq_no (.err .DeserFailed) fr → Sendable cap enc fr →
      MustAnswer D cap enc c bs frs c' → MustAnswer D cap enc c (b :: bs) (fr :: frs) c'
  | schemas {c c' b bs hdr body items k fr frs} : IsFrame b hdr body → LongEnough D hdr →
      rxShort D hdr ≠ short (keyLen D.n) D.std.ping_req → rxShort D hdr = short (keyLen D.n) D.std.schemas_req →
      Reported D cap enc 0 (schemaMsgs D.device_map) items k →
      IsMsg D.n D.std.schemas_resp hdr.seq_no (.totals ⟨BitVec.ofNat 32 D.device_map.types.length,
        BitVec.ofNat 32 D.device_map.endpoints.length, BitVec.ofNat 32 D.device_map.topics_in.length,
        BitVec.ofNat 32 D.device_map.topics_out.length, BitVec.ofNat 32 k⟩) fr → Sendable cap enc fr →
      MustAnswer D cap enc c bs frs c' → MustAnswer D cap enc c (b :: bs) (items ++ fr :: frs) c'
  | unknown {c c' b bs hdr body fr frs} : IsFrame b hdr body → LongEnough D hdr →
      (∀ q ∈ handledKeys D, rxShort D hdr ≠ short (keyLen D.n) q) →
      IsMsg D.n D.std.error hdr.seq_no (.err .UnknownKey) fr → Sendable cap enc fr →
      MustAnswer D cap enc c bs frs c' → MustAnswer D cap enc c (b :: bs) (fr :: frs) c'
  | tooShort {c c' b bs hdr body fr frs} : IsFrame b hdr body → ¬ LongEnough D hdr →
      IsMsg D.n D.std.error hdr.seq_no (.err .KeyTooSmall) fr → Sendable cap enc fr →
      MustAnswer D cap enc c bs frs c' → MustAnswer D cap enc c (b :: bs) (fr :: frs) c'
  | topic {c c' b bs hdr body t f v frs} : IsFrame b hdr body → ForTopic D hdr t → t.flavor = .blocking f →
      t.decode body = some v → MustAnswer D cap enc (f c hdr v) bs frs c' → MustAnswer D cap enc c (b :: bs) frs c'
  | topicSpawned {c c' b bs hdr body t v frs} : IsFrame b hdr body → ForTopic D hdr t → t.flavor = .spawn →
      t.decode body = some v → MustAnswer D cap enc (D.spawn_ctxt c).2 bs frs c' → MustAnswer D cap enc c (b :: bs) frs c'
  | topicUndecodable {c c' b bs hdr body t frs} : IsFrame b hdr body → ForTopic D hdr t → t.decode body = none →
      MustAnswer D cap enc c bs frs c' → MustAnswer D cap enc c (b :: bs) frs c'
  | malformed {c c' b bs frs} : (∀ hdr body, ¬ IsFrame b hdr body) →
      MustAnswer D cap enc c bs frs c' → MustAnswer D cap enc c (b :: bs) frs c'

/-- The frames a log shows as sent without error. -/
def delivered : List (Event V E SC) → List (Frame V)
  | [] => []
  | .sent _ f none :: es => f :: delivered es
  | _ :: es => delivered es

/-- No endpoint handler is spawned and no topic handler is given the `Sender`. -/
def InDispatcher (D : Dispatcher V E SC Ctx) : Prop :=
  (∀ h ∈ D.eps, ∃ f, h.flavor = .blocking f ∨ h.flavor = .async f) ∧ ∀ t ∈ D.tps, (∃ f, t.flavor = .blocking f) ∨ t.flavor = .spawn

/-- The messages the server itself sends are serialized without failure, into at most as many bytes as their types need: errors
into 11, the totals of a schema report into 25, a ping's number into 5. -/
structure FitsStd (D : Dispatcher V E SC Ctx) (enc : Body V → Ser) : Prop where
  err : ∀ e, (enc (.err e)).fails = false ∧ (enc (.err e)).bytes.length ≤ 11
  totals : ∀ t, (enc (.totals t)).fails = false ∧ (enc (.totals t)).bytes.length ≤ 25
  ping : ∀ b v, D.ping_decode b = some v → (enc (.val v)).fails = false ∧ (enc (.val v)).bytes.length ≤ 5

end PRpc.Spec
