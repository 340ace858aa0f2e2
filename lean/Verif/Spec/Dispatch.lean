import Verif.Spec.MinKey
import Verif.Model.Dispatch
/-! Vocabulary for the dispatch properties: what a log shows, what frames look like, which row a frame is for. -/

namespace PRpc.Spec

variable {V E SC Ctx : Type}

/-- The handler calls shown by a log, in order (for a spawned handler: the call that makes the task). -/
def calls : List (Event V E SC) → List (Role × Nat × VarHeader × V)
  | [] => []
  | .ran r n h a :: es => (r, n, h, a) :: calls es
  | .spawned t _ :: es => (t.role, t.name, t.hdr, t.arg) :: calls es
  | .sent _ _ _ :: es => calls es

/-- The frames shown by a log as sent by the dispatcher itself, in order. -/
def ownFrames : List (Event V E SC) → List (Frame V)
  | [] => []
  | .sent .dispatcher f _ :: es => f :: ownFrames es
  | _ :: es => ownFrames es

/-- All frames shown by a log. -/
def frames : List (Event V E SC) → List (Frame V)
  | [] => []
  | .sent _ f _ :: es => f :: frames es
  | _ :: es => frames es

/-- A frame sent under the given full key at the given key length, with the given sequence number and body. -/
structure IsMsg (kkind : VarKeyKind) (key : Key) (seq : VarSeq) (body : Body V) (f : Frame V) : Prop where
  key : keyBytes f.hdr.key = short (keyLen kkind) key
  seq : f.hdr.seq_no = seq
  body : f.body = body

/-- The received key folded to the dispatcher's key length. -/
def rxShort (D : Dispatcher V E SC Ctx) (hdr : VarHeader) : Bytes := fold (keyLen D.n) (keyBytes hdr.key)

/-- The received key is at least as long as the dispatcher's. -/
def LongEnough (D : Dispatcher V E SC Ctx) (hdr : VarHeader) : Prop := keyLen D.n ≤ (keyBytes hdr.key).length

/-- The short form is not that of one of the built-in endpoints. -/
def NotStd (D : Dispatcher V E SC Ctx) (hdr : VarHeader) : Prop :=
  rxShort D hdr ≠ short (keyLen D.n) D.std.ping_req ∧ rxShort D hdr ≠ short (keyLen D.n) D.std.schemas_req

/-- The frame is for row `h` of the endpoint table: `h` is the first row whose request key agrees with the received
key at the dispatcher's key length. -/
structure ForEndpoint (D : Dispatcher V E SC Ctx) (hdr : VarHeader) (h : EpHandler V Ctx) : Prop where
  long : LongEnough D hdr
  notStd : NotStd D hdr
  here : rxShort D hdr = short (keyLen D.n) h.req
  first : ∃ pre post, D.eps = pre ++ h :: post ∧ ∀ g ∈ pre, rxShort D hdr ≠ short (keyLen D.n) g.req

/-- The frame is for row `t` of the topic table. -/
structure ForTopic (D : Dispatcher V E SC Ctx) (hdr : VarHeader) (t : TpHandler V E Ctx) : Prop where
  long : LongEnough D hdr
  notStd : NotStd D hdr
  notEp : ∀ g ∈ D.eps, rxShort D hdr ≠ short (keyLen D.n) g.req
  here : rxShort D hdr = short (keyLen D.n) t.key
  first : ∃ pre post, D.tps = pre ++ t :: post ∧ ∀ g ∈ pre, rxShort D hdr ≠ short (keyLen D.n) g.key

/-- The full keys a dispatcher answers to. -/
def handledKeys (D : Dispatcher V E SC Ctx) : List Key :=
  [D.std.ping_req, D.std.schemas_req] ++ D.eps.map (·.req) ++ D.tps.map (·.key)

/-- `b` is the documented encoding of header `hdr` followed by `body`. -/
def IsFrame (b : Bytes) (hdr : VarHeader) (body : Bytes) : Prop :=
  b.map BitVec.toNat = layout hdr ++ body.map BitVec.toNat

/-- The well-formed frames among receive outcomes, in order; malformed frames and receive errors that do not close the
connection count for nothing. -/
inductive Consumed {RE : Type} (rx_kind : RE → WireRxErrorKind) : List (Rx RE) → List (VarHeader × Bytes) → Prop where
  | nil : Consumed rx_kind [] []
  | malformed {b rs fs} : (∀ hdr body, ¬ IsFrame b hdr body) → Consumed rx_kind rs fs →
      Consumed rx_kind (.frame b :: rs) fs
  | error {e rs fs} : rx_kind e ≠ .ConnectionClosed → Consumed rx_kind rs fs → Consumed rx_kind (.error e :: rs) fs
  | frame {b hdr body rs fs} : IsFrame b hdr body → Consumed rx_kind rs fs →
      Consumed rx_kind (.frame b :: rs) ((hdr, body) :: fs)

/-- A send error kind on which the server loop is documented to stop. -/
def FatalTx (k : WireTxErrorKind) : Prop := k = .ConnectionClosed ∨ k = .Timeout

/-- Dispatching the frames one after another, each without a fatal error. -/
inductive Dispatched {S : Type} (tx_kind : E → WireTxErrorKind)
    (handle : VarHeader → Bytes → S → Exec (Option E × S)) : List (VarHeader × Bytes) → S → S → Prop where
  | nil {s} : Dispatched tx_kind handle [] s s
  | cons {hdr body fs s r s₁ s₂} : handle hdr body s = .ok (r, s₁) → (∀ e, r = some e → ¬ FatalTx (tx_kind e)) →
      Dispatched tx_kind handle fs s₁ s₂ → Dispatched tx_kind handle ((hdr, body) :: fs) s s₂

/-- The schema messages of a device map: types, endpoints, outgoing topics, incoming topics. -/
def schemaMsgs (m : DeviceMap) : List SchemaData :=
  m.types.map .Type ++ m.endpoints.map (fun r => .Endpoint r.path r.req r.resp) ++
    m.topics_out.map (fun r => .Topic r.path r.key .ToClient) ++
    m.topics_in.map (fun r => .Topic r.path r.key .ToServer)

/-- Number of failed sends in a log. -/
def failures : List (Event V E SC) → Nat
  | [] => 0
  | .sent _ _ (some _) :: es => failures es + 1
  | _ :: es => failures es

end PRpc.Spec
