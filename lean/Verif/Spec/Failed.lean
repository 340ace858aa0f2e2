import Verif.Spec.Linear
import Verif.Spec.Progress
/-! Vocabulary for C90: what an error tells about the request it answers. -/

namespace PRpc.Spec

variable {V E SC Ctx : Type}

/-- Why a request with this header and body, received when the context was `ctx`, is answered with an error, and the context it
leaves behind.  `log` is what the server has done. -/
inductive Refusal (D : Dispatcher V E SC Ctx) (kkind : VarKeyKind) (log : List (Event V E SC)) (hdr : VarHeader) (body : Bytes) (ctx : Ctx) :
    WireError → Ctx → Prop where
  | key_too_small : ¬ LongEnough D hdr → Refusal D kkind log hdr body ctx .KeyTooSmall ctx
  | unknown : LongEnough D hdr → (∀ k ∈ handledKeys D, rxShort D hdr ≠ short (keyLen D.n) k) →
      Refusal D kkind log hdr body ctx .UnknownKey ctx
  | ping_undecodable : LongEnough D hdr → rxShort D hdr = short (keyLen D.n) D.std.ping_req → D.ping_decode body = none →
      Refusal D kkind log hdr body ctx .DeserFailed ctx
  | undecodable (h : EpHandler V Ctx) : ForEndpoint D hdr h → h.decode body = none → Refusal D kkind log hdr body ctx .DeserFailed ctx
  | unsent (h : EpHandler V Ctx) (g : Ctx → VarHeader → V → V × Ctx) (v : V) (fr : Frame V) (x : E) : ForEndpoint D hdr h →
      (h.flavor = .blocking g ∨ h.flavor = .async g) → h.decode body = some v →
      IsMsg kkind h.resp hdr.seq_no (.val (g ctx hdr v).1) fr → .sent .dispatcher fr (some x) ∈ log →
      Refusal D kkind log hdr body ctx .SerFailed (g ctx hdr v).2
  | unspawned (h : EpHandler V Ctx) (v : V) : ForEndpoint D hdr h → h.flavor = .spawn → h.decode body = some v →
      .spawned ⟨.endpoint, h.name, (D.spawn_ctxt ctx).1, hdr, v⟩ false ∈ log →
      Refusal D kkind log hdr body ctx .FailedToSpawn (D.spawn_ctxt ctx).2

/-- Byte string `j` of those the client has sent, with this header and body, was answered with the error `e`: for a reason, with its
effect on the context, and no task has been spawned for it. -/
structure RefusedAt (D : Dispatcher V E SC Ctx) (kkind : VarKeyKind) (s : Sys V E SC Ctx) (j : Nat) (hdr : VarHeader) (body : Bytes)
    (e : WireError) : Prop where
  sent : ∃ b, s.client.tx[j]? = some b ∧ IsFrame b hdr body
  why : ∃ ctx ctx', (contexts s)[j]? = some ctx ∧ (contexts s)[j + 1]? = some ctx' ∧ Refusal D kkind s.srv.log hdr body ctx e ctx'
  unspawned : ∀ (i : Nat) (x : Nat × Task V SC), s.old ≤ i → s.tasks[i]? = some x → x.1 ≠ j

end PRpc.Spec
