import Verif.Spec.System
import Verif.Spec.Context
/-! Vocabulary for C88: the order in which the requests of a client take effect. -/

namespace PRpc.Spec

variable {V E SC Ctx : Type}

/-- The context of the server's handlers before each byte string it has received, and now. -/
def contexts (s : Sys V E SC Ctx) : List Ctx := s.before ++ [s.srv.ctx]

/-- Byte string `j` of those the client has sent is the request of call `c`, with a key the dispatcher can tell from others. -/
structure AskedAt (D : Dispatcher V E SC Ctx) (s : Sys V E SC Ctx) (c j : Nat) : Prop where
  asked : ∃ (cl : Call) (b : Bytes) (hdr : VarHeader) (req : Key), s.client.calls[c]? = some cl ∧ s.client.tx[j]? = some b ∧
    IsFrame b hdr cl.rqst.body ∧ hdr.seq_no = cl.rqst.header.seq_no ∧ cl.rqst.header.key = .Key8 req ∧ LongEnough D hdr ∧
    rxShort D hdr = short (keyLen D.n) req

/-- What byte string `j` turns the context `ctx` into: what its handler makes of it, or, if it is no frame or does not fit into the
server's buffer, nothing; then it is neither answered nor is a task spawned for it. -/
inductive Effect (D : Dispatcher V E SC Ctx) (s : Sys V E SC Ctx) (j : Nat) (ctx : Ctx) : Ctx → Prop where
  | handled (b : Bytes) (hdr : VarHeader) (body : Bytes) (sends : List (Frame V × Option E)) (ctx' : Ctx) :
      s.client.tx[j]? = some b → IsFrame b hdr body → Leaves D hdr body ctx sends ctx' → Effect D s j ctx ctx'
  | dropped : (∀ o, o ∈ s.outs ∨ o ∈ s.pending → o.src ≠ .req j) →
      (∀ (i : Nat) (x : Nat × Task V SC), s.old ≤ i → s.tasks[i]? = some x → x.1 ≠ j) → Effect D s j ctx ctx

/-- The reply `fr` to byte string `j` is what the handler for it gives in the context after the byte strings before it, and what
the handler leaves is the context for the byte strings after it. -/
inductive Applied (D : Dispatcher V E SC Ctx) (s : Sys V E SC Ctx) (j : Nat) (hdr : VarHeader) (body : Bytes) (fr : Frame V) : Prop where
  | called (h : EpHandler V Ctx) (g : Ctx → VarHeader → V → V × Ctx) (v : V) (ctx : Ctx) : ForEndpoint D hdr h →
      (h.flavor = .blocking g ∨ h.flavor = .async g) → h.decode body = some v → (contexts s)[j]? = some ctx →
      fr.body = .val (g ctx hdr v).1 → (contexts s)[j + 1]? = some (g ctx hdr v).2 → Applied D s j hdr body fr
  | spawned (h : EpHandler V Ctx) (v w : V) (i : Nat) (sc : SC) (ctx : Ctx) : ForEndpoint D hdr h → h.flavor = .spawn →
      h.decode body = some v → (contexts s)[j]? = some ctx → s.tasks[i]? = some (j, ⟨.endpoint, h.name, sc, hdr, v⟩) →
      fr.body = .val w → (contexts s)[j + 1]? = some (D.spawn_ctxt ctx).2 → Applied D s j hdr body fr
  | ping (v : V) (ctx : Ctx) : rxShort D hdr = short (keyLen D.n) D.std.ping_req → D.ping_decode body = some v → fr.body = .val v →
      (contexts s)[j]? = some ctx → (contexts s)[j + 1]? = some ctx → Applied D s j hdr body fr
  | schemas (t : SchemaTotals) (ctx : Ctx) : rxShort D hdr = short (keyLen D.n) D.std.schemas_req → fr.body = .totals t →
      (contexts s)[j]? = some ctx → (contexts s)[j + 1]? = some ctx → Applied D s j hdr body fr

end PRpc.Spec
