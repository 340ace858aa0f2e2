import Verif.Spec.Live
import Verif.Model.UsbSys
/-! Vocabulary for C84: client and server over a USB cable. -/

namespace PRpc.Spec

variable {V E SC Ctx : Type}

/-- Everything the server has sent is shorter than the host's transfers of 1024 bytes. -/
def Small (S : SysCfg V E SC Ctx) (s : Sys V E SC Ctx) : Prop :=
  ∀ o ∈ s.outs, ∀ b, IsFrame b o.frame.hdr (S.enc o.frame.body) → b.length < 1024

/-- Everything the client has sent fits into the server's receive buffer, with room for one more byte. -/
def RequestsFit (U : UsbCfg V E SC Ctx) (s : Sys V E SC Ctx) : Prop := ∀ b ∈ s.client.tx, b.length < U.rxlen

/-- The receive buffer is made of whole packets (as in all of the repository's examples), and the endpoint holds a packet. -/
structure UsbSound (U : UsbCfg V E SC Ctx) : Prop where
  buffer : 64 ∣ U.rxlen
  some_buffer : 0 < U.rxlen
  endpoint : 0 < U.ep_cap

/-- As `Used`. -/
def UsbUsed (a : App V E SC Ctx) : ULabel V → Prop
  | .client l => Used a (.client l : SLabel V)
  | .app_publish key seq v => Used a (.app_publish key seq v)
  | _ => True

/-- Subscriptions are made to declared outgoing topics. -/
def UsbListens (a : App V E SC Ctx) : ULabel V → Prop
  | .client l => Listens a (.client l : SLabel V)
  | _ => True

/-- The two states are alike but for what is on its way to the client. -/
def SameButAir (s t : Sys V E SC Ctx) : Prop := { s with air := [] } = { t with air := [] }

/-- The steps the system takes by itself: those of `SysOwn`, and every packet on its way, if no write fails. -/
def UsbOwn (u : UsbSys V E SC Ctx) : ULabel V → Prop
  | .client l => SysOwn u.sys (.client l : SLabel V)
  | .host_packet => True
  | .dev_read => True
  | .flush => True
  | .task_reply i _ => ¬ Replied u.sys i
  | .dev_write o => o = .ok
  | .app_publish _ _ _ => False
  | .refuse => False

/-- A run of such steps. -/
inductive UsbOwnRun (U : UsbCfg V E SC Ctx) : UsbSys V E SC Ctx → List (ULabel V) → UsbSys V E SC Ctx → Prop where
  | nil (u : UsbSys V E SC Ctx) : UsbOwnRun U u [] u
  | cons {u v w : UsbSys V E SC Ctx} {l : ULabel V} {ls : List (ULabel V)} (ho : UsbOwn u l) (h : u_step U u l = some v)
    (hr : UsbOwnRun U v ls w) : UsbOwnRun U u (l :: ls) w

/-- No such step is possible. -/
def UsbStuck (U : UsbCfg V E SC Ctx) (u : UsbSys V E SC Ctx) : Prop := ∀ l, UsbOwn u l → u_step U u l = none

/-- Nothing is left to do and nothing is on the cable. -/
structure UsbAtRest (u : UsbSys V E SC Ctx) : Prop where
  sys : AtRest u.sys
  out : u.bus_out = [] ∧ u.ep_out = [] ∧ u.rx = .filling []
  sending : u.sending = none
  cur : u.cur = []

end PRpc.Spec
