import Verif.Spec.Dispatch
/-! Vocabulary for C69: what a received frame does to the context of the server's handlers. -/

namespace PRpc.Spec

variable {V E SC Ctx : Type}

/-- The program of a topic handler, its sends having the given outcomes, ends leaving the context `c`. -/
inductive Ends : Prog V E Ctx → List (Frame V × Option E) → Ctx → Prop where
  | done (c : Ctx) : Ends (.done c) [] c
  | send (f : Frame V) (k : Option E → Prog V E Ctx) (r : Option E) (rest : List (Frame V × Option E)) (c : Ctx) :
      Ends (k r) rest c → Ends (.send f k) ((f, r) :: rest) c

/-- The sends made by handlers, with their outcomes. -/
def handlerSends : List (Event V E SC) → List (Frame V × Option E)
  | [] => []
  | .sent .handler f r :: es => (f, r) :: handlerSends es
  | _ :: es => handlerSends es

/-- The frame is for no handler: no row is for it, or the row's message does not decode. -/
def NoHandler (D : Dispatcher V E SC Ctx) (hdr : VarHeader) (body : Bytes) : Prop :=
  (∀ h, ForEndpoint D hdr h → h.decode body = none) ∧ ∀ t, ForTopic D hdr t → t.decode body = none

/-- What a frame turns the context `c` into, its handler making the given sends. -/
inductive Leaves (D : Dispatcher V E SC Ctx) (hdr : VarHeader) (body : Bytes) (c : Ctx) : List (Frame V × Option E) → Ctx → Prop where
  | endpoint {h : EpHandler V Ctx} {req : V} {f : Ctx → VarHeader → V → V × Ctx} (hf : ForEndpoint D hdr h)
      (hd : h.decode body = some req) (hl : h.flavor = .blocking f ∨ h.flavor = .async f) : Leaves D hdr body c [] (f c hdr req).2
  | endpoint_spawn {h : EpHandler V Ctx} {req : V} (hf : ForEndpoint D hdr h)
      (hd : h.decode body = some req) (hl : h.flavor = .spawn) : Leaves D hdr body c [] (D.spawn_ctxt c).2
  | topic {t : TpHandler V E Ctx} {msg : V} {f : Ctx → VarHeader → V → Ctx} (hf : ForTopic D hdr t)
      (hd : t.decode body = some msg) (hl : t.flavor = .blocking f) : Leaves D hdr body c [] (f c hdr msg)
  | topic_async {t : TpHandler V E Ctx} {msg : V} {f : Ctx → VarHeader → V → Prog V E Ctx} {sends : List (Frame V × Option E)} {c' : Ctx}
      (hf : ForTopic D hdr t) (hd : t.decode body = some msg) (hl : t.flavor = .async f) (he : Ends (f c hdr msg) sends c') :
      Leaves D hdr body c sends c'
  | topic_spawn {t : TpHandler V E Ctx} {msg : V} (hf : ForTopic D hdr t)
      (hd : t.decode body = some msg) (hl : t.flavor = .spawn) : Leaves D hdr body c [] (D.spawn_ctxt c).2
  | untouched (hn : NoHandler D hdr body) : Leaves D hdr body c [] c

/-- The context going from frame to frame. -/
inductive Threads (D : Dispatcher V E SC Ctx) : List (VarHeader × Bytes) → Ctx → Ctx → Prop where
  | nil (c : Ctx) : Threads D [] c c
  | cons {hdr : VarHeader} {body : Bytes} {fs : List (VarHeader × Bytes)} {c c₁ c₂ : Ctx} {sends : List (Frame V × Option E)}
      (h : Leaves D hdr body c sends c₁) (hr : Threads D fs c₁ c₂) : Threads D ((hdr, body) :: fs) c c₂

end PRpc.Spec
