import Verif.Spec.Skew
import Verif.Spec.Session
import Verif.Spec.SkewUsb
import Verif.Spec.UsbNext
/-! Vocabulary for C108: a board used by hosts of several versions, one after the other. -/

namespace PRpc.Spec

variable {V E SC Ctx : Type}

/-- A board that has had the hosts `es`, each with its own interface and the state in which its session ended, and now starts in
state `s` with a new one.  The requests of each host differ from those of the board at the board's key length. -/
inductive HostSessions (a : App V E SC Ctx) (S : SysCfg V E SC Ctx) : List (HostIcd × Sys V E SC Ctx) → Sys V E SC Ctx → Prop where
  | first (c : Ctx) : HostSessions a S [] (Sys.new c)
  | next (es : List (HostIcd × Sys V E SC Ctx)) (s s' : Sys V E SC Ctx) (H : HostIcd) (ls : List (SLabel V)) : HostSessions a S es s →
      RequestsApart a H (keyLen S.disp.n) → (∀ l ∈ ls, HostUses a H l) → sys_run S ls s = some s' → s'.client.calls.length < 2 ^ 32 →
      HostSessions a S (es ++ [(H, s')]) s'.reconnect

/-- The same over a USB cable: the device was idle when a host process ended, or was disconnected then. -/
inductive UsbHostSessions (a : App V E SC Ctx) (U : UsbCfg V E SC Ctx) : List (HostIcd × UsbSys V E SC Ctx) → UsbSys V E SC Ctx → Prop where
  | first (c : Ctx) : UsbHostSessions a U [] (UsbSys.new c)
  | next (es : List (HostIcd × UsbSys V E SC Ctx)) (u0 u : UsbSys V E SC Ctx) (H : HostIcd) (ls : List (ULabel V)) : UsbHostSessions a U es u0 →
      RequestsApart a H (keyLen U.S.disp.n) → (∀ l ∈ ls, UsbHostUses a H l) → u_run U ls u0 = some u → Small U.S u.sys →
      u.sys.client.calls.length < 2 ^ 32 → DevIdle u → UsbHostSessions a U (es ++ [(H, u)]) u.next
  | replug (es : List (HostIcd × UsbSys V E SC Ctx)) (u0 u : UsbSys V E SC Ctx) (H : HostIcd) (ls : List (ULabel V)) : UsbHostSessions a U es u0 →
      RequestsApart a H (keyLen U.S.disp.n) → (∀ l ∈ ls, UsbHostUses a H l) → u_run U ls u0 = some u → Small U.S u.sys →
      u.sys.client.calls.length < 2 ^ 32 → UsbHostSessions a U (es ++ [(H, u)]) u.replug

end PRpc.Spec
