import Verif.Model.WebNext
import Verif.Spec.WebSys
import Verif.Spec.UsbNext
/-! Vocabulary for C109: pages and host processes that use a USB device one after the other. -/

namespace PRpc.Spec

variable {V E SC Ctx : Type}

/-- The host that opened the device in state `u0` has brought it to state `u`.  It is a page, whose requests do not fill their last
packet and whose transfers hold what the device sends, or a process. -/
inductive HostRan (W : WebCfg V E SC Ctx) (ls : List (ULabel V)) (u0 u : UsbSys V E SC Ctx) : Prop where
  | page (failed : Bool) : w_run W ls (WebSys.opened u0) = some ⟨u, failed⟩ → WebSmall W u.sys → WebShort u.sys → HostRan W ls u0 u
  | process : u_run W.U ls u0 = some u → Small W.U.S u.sys → HostRan W ls u0 u

/-- A device that pages and processes have used whose sessions ended in the states `es`, and which is now opened by a new one, in
state `u`.  Where the host before ended and the device stayed connected it was idle; where the device was disconnected the state was
any. -/
inductive WebSessions (a : App V E SC Ctx) (W : WebCfg V E SC Ctx) : List (UsbSys V E SC Ctx) → UsbSys V E SC Ctx → Prop where
  | first (c : Ctx) : WebSessions a W [] (UsbSys.new c)
  | next (es : List (UsbSys V E SC Ctx)) (u0 u : UsbSys V E SC Ctx) (ls : List (ULabel V)) : WebSessions a W es u0 →
      (∀ l ∈ ls, UsbUsed a l) → HostRan W ls u0 u → u.sys.client.calls.length < 2 ^ 32 → DevIdle u → WebSessions a W (es ++ [u]) u.next
  | replug (es : List (UsbSys V E SC Ctx)) (u0 u : UsbSys V E SC Ctx) (ls : List (ULabel V)) : WebSessions a W es u0 →
      (∀ l ∈ ls, UsbUsed a l) → HostRan W ls u0 u → u.sys.client.calls.length < 2 ^ 32 → WebSessions a W (es ++ [u]) u.replug

end PRpc.Spec
