import Verif.Lemmas.WebSys
import Verif.Lemmas.UsbNext
import Verif.Spec.WebNext
/-! Pages and host processes one after the other: helper lemmas for C109. -/

namespace PRpc

open Spec

variable {V E SC Ctx : Type}

theorem host_ran {a : App V E SC Ctx} {W : WebCfg V E SC Ctx} (hU : UsbSound W.U) {es : List (UsbSys V E SC Ctx)} {u0 u : UsbSys V E SC Ctx}
    (h0 : UsbSessions a W.U DevIdle es u0) (hcur : u0.cur = []) {ls : List (ULabel V)} (h : HostRan W ls u0 u) :
    u_run W.U ls u0 = some u ∧ Small W.U.S u.sys := by
  cases h with
  | page b h h1 h2 =>
    exact ⟨(web_run hU ⟨(usb_sessions hU h0).1, by show u0.cur.length ≤ _; rw [hcur]; exact Nat.zero_le _, rfl⟩ h1 h2 h).2, webSmall_small h1⟩
  | process h h1 => exact ⟨h, h1⟩

/-- Seen from the device, sessions with pages are sessions with processes. -/
theorem web_sessions {a : App V E SC Ctx} {W : WebCfg V E SC Ctx} (hU : UsbSound W.U) {es : List (UsbSys V E SC Ctx)} {u : UsbSys V E SC Ctx}
    (h : WebSessions a W es u) : UsbSessions a W.U DevIdle es u ∧ u.cur = [] := by
  induction h with
  | first c => exact ⟨.first c, rfl⟩
  | next es u0 u ls _ hu hr hlen hi ih =>
    obtain ⟨h1, h2⟩ := host_ran hU ih.1 ih.2 hr
    exact ⟨.next es u0 u ls ih.1 hu h1 h2 hlen hi, rfl⟩
  | replug es u0 u ls _ hu hr hlen ih =>
    obtain ⟨h1, h2⟩ := host_ran hU ih.1 ih.2 hr
    exact ⟨.replug es u0 u ls ih.1 hu h1 h2 hlen, rfl⟩

theorem opened_inv {a : App V E SC Ctx} {W : WebCfg V E SC Ctx} (hU : UsbSound W.U) {es : List (UsbSys V E SC Ctx)} {u : UsbSys V E SC Ctx}
    (h : WebSessions a W es u) : WebInv W (WebSys.opened u) := by
  obtain ⟨h1, h2⟩ := web_sessions hU h
  exact ⟨(usb_sessions hU h1).1, by show u.cur.length ≤ _; rw [h2]; exact Nat.zero_le _, rfl⟩

end PRpc
