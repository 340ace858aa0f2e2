import Verif.Spec.Workbook
import Verif.Spec.Failed
import Verif.Model.Minimal
import Verif.Spec.UsbNext
/-! Vocabulary for C105: what a client is told by a server without handlers. -/

namespace PRpc.Spec

/-- The call is one of this method. -/
structure IsCallOf (I : WbIcd) (cl : Call) (m : WbMethod) : Prop where
  key : cl.rqst.header.key = .Key8 (m.req I)
  resp : cl.resp_key = m.resp I
  body : cl.rqst.body = m.body

/-- Whatever type of response is expected, the call returns `HostErr::Wire(WireError::UnknownKey)`. -/
def ToldUnknown (r : CallRes) : Prop :=
  ∀ (R : Type) (decode : Bytes → Option R), finish_call decode (from_bytes take_wire_error) r = .Wire .UnknownKey

/-- What a method returns if the firmware has no handlers: `ping` the number it was given, the request for schemas some totals, every other one
that its key is not known. -/
def BareAnswer (m : WbMethod) (r : CallRes) : Prop :=
  match m with
  | .ping id => wb_result m r = .num id
  | .schemas => ∃ t, wb_result m r = .report t
  | _ => ToldUnknown r

/-- A board that programs with a `WorkbookClient` have used whose sessions ended in the states `es`, and which is now opened by a new
one, in state `u`.  Where the program ended and the board stayed connected it was idle; where the board was disconnected the state was
any. -/
inductive WbHosts {E Ctx : Type} (I : WbIcd) (U : UsbCfg WbVal E Unit Ctx) : List (UsbSys WbVal E Unit Ctx) → UsbSys WbVal E Unit Ctx → Prop where
  | first (c : Ctx) : WbHosts I U [] (UsbSys.new c)
  | next (es : List (UsbSys WbVal E Unit Ctx)) (u0 u : UsbSys WbVal E Unit Ctx) (ls : List (ULabel WbVal)) : WbHosts I U es u0 →
      (∀ l ∈ ls, WbUses I l) → u_run U ls u0 = some u → u.sys.client.calls.length < 2 ^ 32 → DevIdle u → WbHosts I U (es ++ [u]) u.next
  | replug (es : List (UsbSys WbVal E Unit Ctx)) (u0 u : UsbSys WbVal E Unit Ctx) (ls : List (ULabel WbVal)) : WbHosts I U es u0 →
      (∀ l ∈ ls, WbUses I l) → u_run U ls u0 = some u → u.sys.client.calls.length < 2 ^ 32 → WbHosts I U (es ++ [u]) u.replug

end PRpc.Spec
