import Verif.Model.WebSys
import Verif.Spec.UsbSys
/-! Vocabulary for C104: a client in a browser. -/

namespace PRpc.Spec

variable {V E SC Ctx : Type}

/-- Everything the server has sent is shorter than what an IN transfer holds (and than 1024 bytes, see `Small`). -/
def WebSmall (W : WebCfg V E SC Ctx) (s : Sys V E SC Ctx) : Prop :=
  ∀ o ∈ s.outs, ∀ b, IsFrame b o.frame.hdr (W.U.S.enc o.frame.body) → b.length < 1024 ∧ b.length < W.len

/-- Nothing the client has sent fills its last packet. -/
def WebShort (s : Sys V E SC Ctx) : Prop := ∀ b ∈ s.client.tx, b.length % 64 ≠ 0

/-- A run of steps the system takes by itself. -/
inductive WebOwnRun (W : WebCfg V E SC Ctx) : WebSys V E SC Ctx → List (ULabel V) → WebSys V E SC Ctx → Prop where
  | nil (x : WebSys V E SC Ctx) : WebOwnRun W x [] x
  | cons {x y z : WebSys V E SC Ctx} {l : ULabel V} {ls : List (ULabel V)} (ho : UsbOwn x.u l) (h : w_step W x l = some y)
    (hr : WebOwnRun W y ls z) : WebOwnRun W x (l :: ls) z

/-- No such step is possible. -/
def WebStuck (W : WebCfg V E SC Ctx) (x : WebSys V E SC Ctx) : Prop := ∀ l, UsbOwn x.u l → w_step W x l = none

end PRpc.Spec
