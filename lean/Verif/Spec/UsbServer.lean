import Verif.Spec.Dispatch
import Verif.Spec.EUsbTx
import Verif.Model.UsbServer
/-! Vocabulary for C72: what a server answers, and how a log shows it. -/

namespace PRpc.Spec

variable {V E SC Ctx : Type}

/-- The sends a log shows, with their outcomes. -/
def sends : List (Event V E SC) → List (Frame V × Option E)
  | [] => []
  | .sent _ f r :: es => (f, r) :: sends es
  | _ :: es => sends es

/-- What the server has to learn of a send with this result: nothing went wrong, or what. -/
def outcome (r : TxRes) : Option WireTxErrorKind :=
  if r = .Ok then none
  else if r = .ConnectionClosed then some .ConnectionClosed
  else if r = .Timeout then some .Timeout
  else some .Other

/-- `MustSend D c bs frs c'`: a server with context `c` that receives the byte strings `bs` one after the other has to send
exactly the frames `frs` and is left with context `c'`.  (Endpoints whose handlers run in the dispatcher, ping, topics with
blocking handlers, and everything that cannot be handled.) -/
inductive MustSend (D : Dispatcher V E SC Ctx) : Ctx → List Bytes → List (Frame V) → Ctx → Prop where
  | nil {c} : MustSend D c [] [] c
  | endpoint {c c' b bs hdr body h f v fr frs} : IsFrame b hdr body → ForEndpoint D hdr h →
      (h.flavor = .blocking f ∨ h.flavor = .async f) → h.decode body = some v →
      IsMsg D.n h.resp hdr.seq_no (.val (f c hdr v).1) fr → MustSend D (f c hdr v).2 bs frs c' →
      MustSend D c (b :: bs) (fr :: frs) c'
  | ping {c c' b bs hdr body v fr frs} : IsFrame b hdr body → LongEnough D hdr →
      rxShort D hdr = short (keyLen D.n) D.std.ping_req → D.ping_decode body = some v →
      IsMsg D.n D.std.ping_resp hdr.seq_no (.val v) fr → MustSend D c bs frs c' → MustSend D c (b :: bs) (fr :: frs) c'
  | undecodable {c c' b bs hdr body h fr frs} : IsFrame b hdr body → ForEndpoint D hdr h → h.decode body = none →
      IsMsg D.n D.std.error hdr.seq_no (.err .DeserFailed) fr → MustSend D c bs frs c' → MustSend D c (b :: bs) (fr :: frs) c'
  | unknown {c c' b bs hdr body fr frs} : IsFrame b hdr body → LongEnough D hdr →
      (∀ q ∈ handledKeys D, rxShort D hdr ≠ short (keyLen D.n) q) →
      IsMsg D.n D.std.error hdr.seq_no (.err .UnknownKey) fr → MustSend D c bs frs c' → MustSend D c (b :: bs) (fr :: frs) c'
  | tooShort {c c' b bs hdr body fr frs} : IsFrame b hdr body → ¬ LongEnough D hdr →
      IsMsg D.n D.std.error hdr.seq_no (.err .KeyTooSmall) fr → MustSend D c bs frs c' → MustSend D c (b :: bs) (fr :: frs) c'
  | topic {c c' b bs hdr body t f v frs} : IsFrame b hdr body → ForTopic D hdr t → t.flavor = .blocking f →
      t.decode body = some v → MustSend D (f c hdr v) bs frs c' → MustSend D c (b :: bs) frs c'
  | topicUndecodable {c c' b bs hdr body t frs} : IsFrame b hdr body → ForTopic D hdr t → t.decode body = none →
      MustSend D c bs frs c' → MustSend D c (b :: bs) frs c'
  | malformed {c c' b bs frs} : (∀ hdr body, ¬ IsFrame b hdr body) → MustSend D c bs frs c' → MustSend D c (b :: bs) frs c'

/-- The frame can be sent whole over USB and received as one message: it is serialized without error, it fits into the
transmit buffer of `cap` bytes, and it is shorter than 1024 bytes. -/
structure Sendable (cap : Nat) (enc : Body V → Ser) (fr : Frame V) : Prop where
  ser : (enc fr.body).fails = false
  fits : (layout fr.hdr).length + (enc fr.body).bytes.length ≤ cap
  short : (layout fr.hdr).length + (enc fr.body).bytes.length < 1024

/-- What other code does is harmless to the rest: no formatted log message panics, and texts are shorter than the address
space. -/
def Harmless (L : UsbLink V) : Prop :=
  ∀ i, ∀ x ∈ L.others i, ¬ LogPanics L.w L.buf.length x.1 ∧ ∀ kk s k, x.1 = .send_log_str kk s k → s.length < 2 ^ (8 * L.w)

end PRpc.Spec

namespace PRpc

/-- The state a result of the server loop holds. -/
def RunRes.state {E RE S : Type} : RunRes E RE S → S
  | .waiting s => s
  | .rx_fatal _ _ s => s
  | .tx_fatal _ _ s => s

end PRpc
