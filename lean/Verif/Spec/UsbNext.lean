import Verif.Model.UsbNext
import Verif.Spec.UsbSys
import Verif.Spec.Session
/-! Vocabulary for C102: host processes that use a USB device one after the other. -/

namespace PRpc.Spec

variable {V E SC Ctx : Type}

/-- The device waits for the next message: it has handled everything it got, and sends nothing. -/
structure DevIdle (u : UsbSys V E SC Ctx) : Prop where
  endpoint : u.ep_out = []
  receiver : u.rx = .filling []
  sending : u.sending = none
  pending : u.sys.pending = []

/-- A device that host processes have used whose sessions ended in the states `es`, and which is now opened by a new one, in state
`u`.  Where the process ended and the device stayed connected the state had the property `P`; where the device was disconnected the
state was any. -/
inductive UsbSessions (a : App V E SC Ctx) (U : UsbCfg V E SC Ctx) (P : UsbSys V E SC Ctx → Prop) :
    List (UsbSys V E SC Ctx) → UsbSys V E SC Ctx → Prop where
  | first (c : Ctx) : UsbSessions a U P [] (UsbSys.new c)
  | next (es : List (UsbSys V E SC Ctx)) (u0 u : UsbSys V E SC Ctx) (ls : List (ULabel V)) : UsbSessions a U P es u0 →
      (∀ l ∈ ls, UsbUsed a l) → u_run U ls u0 = some u → Small U.S u.sys → u.sys.client.calls.length < 2 ^ 32 → P u →
      UsbSessions a U P (es ++ [u]) u.next
  | replug (es : List (UsbSys V E SC Ctx)) (u0 u : UsbSys V E SC Ctx) (ls : List (ULabel V)) : UsbSessions a U P es u0 →
      (∀ l ∈ ls, UsbUsed a l) → u_run U ls u0 = some u → Small U.S u.sys → u.sys.client.calls.length < 2 ^ 32 →
      UsbSessions a U P (es ++ [u]) u.replug

end PRpc.Spec
