import Verif.Spec.UsbNext
import Verif.Lemmas.UsbLive
import Verif.Lemmas.Session
import Verif.Props.UsbSys
/-! Helper lemmas for C102: sessions over USB are sessions over links that carry whole messages, if the device was idle in between. -/

namespace PRpc

open Spec Props

variable {V E SC Ctx : Type}

theorem next_abs {u : UsbSys V E SC Ctx} (h : DevIdle u) : u.next.abs = u.abs.reconnect := by
  unfold UsbSys.abs UsbSys.rest
  simp only [UsbSys.next, h.sending, h.pending]
  rfl

theorem next_inv (S : SysCfg V E SC Ctx) {u : UsbSys V E SC Ctx} (h : DevIdle u) : UsbInv S u.next where
  taken := Nat.le_refl _
  stream := by
    refine ⟨[], (by intro q h; cases h), ?_, ?_⟩
    · intro got hg
      have : DevRx.filling [] = DevRx.filling got := h.receiver.symm.trans hg
      cases this; rfl
    · show [] ++ u.ep_out ++ [] = _
      rw [h.endpoint]; rfl
  idle := fun _ _ => rfl
  send := fun w hw => by
    have : u.sending = some w := hw
    rw [h.sending] at this; cases this

theorem replug_abs (u : UsbSys V E SC Ctx) : u.replug.abs = u.abs.reconnect := rfl

theorem replug_inv (S : SysCfg V E SC Ctx) (u : UsbSys V E SC Ctx) : UsbInv S u.replug where
  taken := Nat.le_refl _
  stream := ⟨[], (by intro q h; cases h), (by intro got h; cases h; rfl), rfl⟩
  idle := fun _ _ => rfl
  send := fun w h => nomatch h

theorem usb_sessions {a : App V E SC Ctx} {U : UsbCfg V E SC Ctx} (hU : UsbSound U) {es : List (UsbSys V E SC Ctx)} {u : UsbSys V E SC Ctx}
    (h : UsbSessions a U DevIdle es u) : UsbInv U.S u ∧ Sessions a U.S (es.map UsbSys.abs) u.abs := by
  induction h with
  | first c => exact ⟨usbInv_new U.S c, .first c⟩
  | next es u0 u ls _ hu hrun hsm hlen hi ih =>
    obtain ⟨i, s⟩ := ih
    obtain ⟨_, ls', hr, hst⟩ := sim_run hU.buffer hU.some_buffer i hsm hrun
    refine ⟨next_inv U.S hi, ?_⟩
    rw [next_abs hi, List.map_append]
    refine .next _ _ _ ls' s (fun l' hl' => ?_) hr hlen
    obtain ⟨l, hl, h⟩ := hst l' hl'
    exact stands_used h (hu l hl)
  | replug es u0 u ls _ hu hrun hsm hlen ih =>
    obtain ⟨i, s⟩ := ih
    obtain ⟨_, ls', hr, hst⟩ := sim_run hU.buffer hU.some_buffer i hsm hrun
    refine ⟨replug_inv U.S u, ?_⟩
    rw [replug_abs, List.map_append]
    refine .next _ _ _ ls' s (fun l' hl' => ?_) hr hlen
    obtain ⟨l, hl, h⟩ := hst l' hl'
    exact stands_used h (hu l hl)

theorem usb_owns_used {a : App V E SC Ctx} {U : UsbCfg V E SC Ctx} {u v : UsbSys V E SC Ctx} {ls : List (ULabel V)} (h : UsbOwnRun U u ls v) :
    ∀ l ∈ ls, UsbUsed a l := by
  induction h with
  | nil u => intro l hl; cases hl
  | cons ho _ _ ih => intro l hl; exact (List.mem_cons.mp hl).elim (fun e => e ▸ (usb_own_used ho).1) (ih l)

/-- A session over the cable, seen as one over links that carry whole messages. -/
theorem next_run {a : App V E SC Ctx} {U : UsbCfg V E SC Ctx} (hU : UsbSound U) {es : List (UsbSys V E SC Ctx)} {u0 : UsbSys V E SC Ctx}
    (h0 : UsbSessions a U DevIdle es u0) {ls : List (ULabel V)} {u : UsbSys V E SC Ctx} (hu : ∀ l ∈ ls, UsbUsed a l)
    (hrun : u_run U ls u0 = some u) (hsm : Small U.S u.sys) :
    ∃ ls', (∀ l ∈ ls', Used a l) ∧ sys_run U.S ls' u0.abs = some u.abs := by
  obtain ⟨_, ls', hr, hst⟩ := sim_run hU.buffer hU.some_buffer (usb_sessions hU h0).1 hsm hrun
  refine ⟨ls', fun l' hl' => ?_, hr⟩
  obtain ⟨l, hl, h⟩ := hst l' hl'
  exact stands_used h (hu l hl)

theorem whole_run {U : UsbCfg V E SC Ctx} (hs : ∀ log f, U.S.env.send log f = none) {ls : List (ULabel V)} : ∀ {u u' : UsbSys V E SC Ctx},
    WholeInv u → u_run U ls u = some u' → WholeInv u' := by
  induction ls with
  | nil => intro u u' w h; cases h; exact w
  | cons l ls ih =>
    intro u u' w h
    simp only [u_run] at h
    split at h
    · rename_i v hv
      exact ih (whole_step hs w hv) h
    · cases h

/-- Nothing prevents the calls of a new process from being answered. -/
theorem usb_sessions_live {a : App V E SC Ctx} {U : UsbCfg V E SC Ctx} (hU : UsbSound U) (hs : ∀ log f, U.S.env.send log f = none)
    {es : List (UsbSys V E SC Ctx)} {u : UsbSys V E SC Ctx} (h : UsbSessions a U DevIdle es u) : UsbLive a U u := by
  obtain ⟨i, s⟩ := usb_sessions hU h
  have hw : WholeInv u ∧ u.rx ≠ .draining := by
    clear i s
    induction h with
    | first c => exact ⟨wholeInv_new c, by intro h; cases h⟩
    | next es u0 u ls _ hu hrun hsm hlen hi ih =>
      have w := whole_run hs ih.1 hrun
      refine ⟨⟨w.log, w.pending, fun x hx => ?_, fun _ _ => rfl, fun o ho => nomatch ho⟩, fun e => ?_⟩
      · have : u.sending = some x := hx
        rw [hi.sending] at this; cases this
      · have : u.rx = .draining := e
        rw [hi.receiver] at this; cases this
    | replug es u0 u ls _ hu hrun hsm hlen ih =>
      have w := whole_run hs ih.1 hrun
      exact ⟨⟨w.log, (fun o ho => nomatch ho), (fun x hx => nomatch hx), (fun _ _ => rfl), fun o ho => nomatch ho⟩, fun e => nomatch e⟩
  exact ⟨i, hw.1, hw.2, (sessions_start s).inv, sessions_live s⟩

/-- The reply a call of a later session returned, when sends may fail. -/
theorem session_reply (a : App V E SC Ctx) (S : SysCfg V E SC Ctx) (hD : define_dispatch a = .ok S.disp)
    (hdecl : Declared a S.kkind) (hapart : KeysApart a S)
    (hdist : ∀ r ∈ a.endpoint_list.endpoints, short (keyLen S.kkind) r.resp ≠ short (keyLen S.kkind) a.std.error)
    {es : List (Sys V E SC Ctx)} {s0 : Sys V E SC Ctx} (h0 : Sessions a S es s0)
    {ls : List (SLabel V)} {s : Sys V E SC Ctx} (hu : ∀ l ∈ ls, Used a l) (hrun : sys_run S ls s0 = some s)
    (hlen : s.client.calls.length < 2 ^ 32) {c : Nat} {cl : Call} {f : RpcFrame} {i : Nat}
    (hc : s.client.calls[c]? = some cl) (hres : result cl = some (false, f, i)) :
    ∃ o ∈ s.outs, CarriesPart S.enc o f ∧
      ((∃ j hdr req, RequestOf s c cl j hdr ∧ cl.rqst.header.key = .Key8 req ∧ ReplyTo S.disp s j hdr cl.rqst.body req cl.resp_key o) ∨
        ∃ k j t, StaleReply S.disp s cl.resp_key o k j t ∧ ∃ e ∈ es, ∃ c' cl', SameNumber S.disp e c' cl' cl j t) := by
  have st := sessions_start h0
  have inv := sys_run_inv hrun hu st.inv
  obtain ⟨o, ho, h⟩ := reply_begins a S hD hdecl hapart hdist inv hlen hc hres
  refine ⟨o, ho, ?_⟩
  rcases h with ⟨j, hdr, req, h1, h2⟩ | ⟨h1, k, j, t, h2, h3⟩
  · exact ⟨h1, .inl ⟨j, hdr, req, h2⟩⟩
  · refine ⟨h1, .inr ⟨k, j, t, h2, ?_⟩⟩
    have hk := h2.earlier
    have ht := h2.task
    obtain ⟨x, hx⟩ := sys_run_tasks hrun
    rw [sys_run_old hrun, st.old] at hk
    rw [hx, List.getElem?_append_left hk] at ht
    obtain ⟨e, he, inve, hle, body, ht, hfor⟩ := st.tasks k j t ht
    obtain ⟨g, hg, hname, hresp⟩ := h2.row
    obtain ⟨c', cl', hreq, hfl, hkey, hdec⟩ := task_request hD hdecl inve hle ht hfor h2.role hg hname
    exact ⟨e, he, c', cl', hreq, by rw [← hreq.seq]; exact h3, g, hg, hname, hfl, hkey, hresp, hdec⟩

end PRpc
