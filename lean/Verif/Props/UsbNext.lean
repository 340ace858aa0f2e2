import Verif.Lemmas.UsbNext
import Verif.Props.Session
/-! Host processes that use a USB device one after the other: C102. -/

namespace PRpc.Props

open Spec

variable {V E SC Ctx : Type}

/-- C102 as stated, for replies: whenever earlier host processes ended, a call of a new one that returned a reply returned the one
the handler of its endpoint gave to this call's own request.  (For an application that fits together and has no spawned endpoint
handlers, so that C77 gives it for connections that end on both sides, and no send fails.) -/
def C102Replies : Prop :=
  ∀ (V E SC Ctx : Type) (a : App V E SC Ctx) (U : UsbCfg V E SC Ctx), UsbSound U → define_dispatch a = .ok U.S.disp →
  Declared a U.S.kkind → Fits a U.S → (∀ h ∈ a.eps, h.flavor ≠ .spawn) →
  ∀ (es : List (UsbSys V E SC Ctx)) (u0 : UsbSys V E SC Ctx), UsbSessions a U (fun _ => True) es u0 →
  ∀ (ls : List (ULabel V)) (u : UsbSys V E SC Ctx), (∀ l ∈ ls, UsbUsed a l) → u_run U ls u0 = some u → Small U.S u.sys →
  RequestsFit U u.sys → u.sys.client.calls.length < 2 ^ 32 →
  ∀ (c : Nat) (cl : Call) (f : RpcFrame) (i : Nat), u.sys.client.calls[c]? = some cl → result cl = some (false, f, i) →
    ∃ o ∈ u.sys.outs, ∃ j hdr req, Carries U.S.enc o f ∧ RequestOf u.sys c cl j hdr ∧ cl.rqst.header.key = .Key8 req ∧
      ReplyTo U.S.disp u.sys j hdr cl.rqst.body req cl.resp_key o

/-- C102 as stated, for answers: under the same conditions no call of the new process is left without an answer when nothing is left
to do and nothing is on the cable. -/
def C102Answered : Prop :=
  ∀ (V E SC Ctx : Type) (a : App V E SC Ctx) (U : UsbCfg V E SC Ctx), UsbSound U → define_dispatch a = .ok U.S.disp →
  Declared a U.S.kkind → Fits a U.S → (∀ h ∈ a.eps, h.flavor ≠ .spawn) →
  ∀ (es : List (UsbSys V E SC Ctx)) (u0 : UsbSys V E SC Ctx), UsbSessions a U (fun _ => True) es u0 →
  ∀ (ls : List (ULabel V)) (u : UsbSys V E SC Ctx), (∀ l ∈ ls, UsbUsed a l) → (∀ l ∈ ls, UsbListens a l) → u_run U ls u0 = some u →
  Small U.S u.sys → RequestsFit U u.sys → u.sys.client.calls.length < 2 ^ 32 → UsbAtRest u →
    ∀ cl ∈ u.sys.client.calls, cl.phase = .dropped ∨ ∃ err f i, result cl = some (err, f, i)

/-- C102 for devices that were idle whenever a process ended: a reply a call of the new process returned (of which a failed send may
have cut the end) is the one its endpoint's handler gave to this call's own request, or that of a task spawned for an earlier process,
to a request with the same number for the same endpoint.  Missing: a process may end at any moment (`c102_replies_false`). -/
theorem c102_replies_partial (a : App V E SC Ctx) (U : UsbCfg V E SC Ctx) (hU : UsbSound U) (hD : define_dispatch a = .ok U.S.disp)
    (hdecl : Declared a U.S.kkind) (hapart : KeysApart a U.S)
    (hdist : ∀ r ∈ a.endpoint_list.endpoints, short (keyLen U.S.kkind) r.resp ≠ short (keyLen U.S.kkind) a.std.error)
    {es : List (UsbSys V E SC Ctx)} {u0 : UsbSys V E SC Ctx} (h0 : UsbSessions a U DevIdle es u0)
    {ls : List (ULabel V)} {u : UsbSys V E SC Ctx} (hu : ∀ l ∈ ls, UsbUsed a l) (hrun : u_run U ls u0 = some u) (hsm : Small U.S u.sys)
    (hlen : u.sys.client.calls.length < 2 ^ 32) {c : Nat} {cl : Call} {f : RpcFrame} {i : Nat}
    (hc : u.sys.client.calls[c]? = some cl) (hres : result cl = some (false, f, i)) :
    ∃ o ∈ u.sys.outs, CarriesPart U.S.enc o f ∧
      ((∃ j hdr req, RequestOf u.sys c cl j hdr ∧ cl.rqst.header.key = .Key8 req ∧
          ReplyTo U.S.disp u.sys j hdr cl.rqst.body req cl.resp_key o) ∨
        ∃ k j t, StaleReply U.S.disp u.sys cl.resp_key o k j t ∧ ∃ e ∈ es, ∃ c' cl', SameNumber U.S.disp e.sys c' cl' cl j t) := by
  obtain ⟨ls', hu', hr⟩ := next_run hU h0 hu hrun hsm
  obtain ⟨o, ho, h1, h2⟩ := session_reply a U.S hD hdecl hapart hdist (usb_sessions hU h0).2 hu' hr hlen hc hres
  refine ⟨o, ho, h1, ?_⟩
  rcases h2 with ⟨j, hdr, req, h2, h3, h4⟩ | ⟨k, j, t, h2, e, he, c', cl', h3⟩
  · exact .inl ⟨j, hdr, req, request_abs h2, h3, reply_abs h4⟩
  · obtain ⟨e, hm, rfl⟩ := List.mem_map.mp he
    exact .inr ⟨k, j, t, ⟨h2.src, h2.earlier, h2.task, h2.role, h2.row, h2.seq, h2.body⟩, e, hm, c', cl',
      ⟨request_abs h3.request, h3.number, h3.handler⟩⟩

/-- C102 for devices that were idle whenever a process ended, and have no spawned endpoint handlers: the new process gets the
replies to its own requests. -/
theorem c102_own_replies_partial (a : App V E SC Ctx) (U : UsbCfg V E SC Ctx) (hU : UsbSound U) (hD : define_dispatch a = .ok U.S.disp)
    (hdecl : Declared a U.S.kkind) (hapart : KeysApart a U.S)
    (hdist : ∀ r ∈ a.endpoint_list.endpoints, short (keyLen U.S.kkind) r.resp ≠ short (keyLen U.S.kkind) a.std.error)
    (hnone : ∀ h ∈ a.eps, h.flavor ≠ .spawn)
    {es : List (UsbSys V E SC Ctx)} {u0 : UsbSys V E SC Ctx} (h0 : UsbSessions a U DevIdle es u0)
    {ls : List (ULabel V)} {u : UsbSys V E SC Ctx} (hu : ∀ l ∈ ls, UsbUsed a l) (hrun : u_run U ls u0 = some u) (hsm : Small U.S u.sys)
    (hlen : u.sys.client.calls.length < 2 ^ 32) {c : Nat} {cl : Call} {f : RpcFrame} {i : Nat}
    (hc : u.sys.client.calls[c]? = some cl) (hres : result cl = some (false, f, i)) :
    ∃ o ∈ u.sys.outs, ∃ j hdr req, CarriesPart U.S.enc o f ∧ RequestOf u.sys c cl j hdr ∧ cl.rqst.header.key = .Key8 req ∧
      ReplyTo U.S.disp u.sys j hdr cl.rqst.body req cl.resp_key o := by
  obtain ⟨o, ho, h1, ⟨j, hdr, req, h2⟩ | ⟨k, j, t, _, e, _, c', cl', h3⟩⟩ :=
    c102_replies_partial a U hU hD hdecl hapart hdist h0 hu hrun hsm hlen hc hres
  · exact ⟨o, ho, j, hdr, req, h1, h2⟩
  · obtain ⟨g, hg, _, hfl, _⟩ := h3.handler
    rw [(define_dispatch_ok hD).2.2.1] at hg
    exact absurd hfl (hnone g hg)

/-- C102 for errors, for devices that were idle whenever a process ended: an error a call returned is one the device sent in this
session, for a message of the new process with the call's sequence number. -/
theorem c102_errors_partial (a : App V E SC Ctx) (U : UsbCfg V E SC Ctx) (hU : UsbSound U) (hD : define_dispatch a = .ok U.S.disp)
    (hdecl : Declared a U.S.kkind) (hcfg : U.S.cfg.err_key = a.std.error)
    (hdist : ∀ r ∈ a.endpoint_list.endpoints, short (keyLen U.S.kkind) r.resp ≠ short (keyLen U.S.kkind) a.std.error)
    (hdist' : ∀ t ∈ a.topic_out_list.topics, short (keyLen U.S.kkind) t.key ≠ short (keyLen U.S.kkind) a.std.error)
    {es : List (UsbSys V E SC Ctx)} {u0 : UsbSys V E SC Ctx} (h0 : UsbSessions a U DevIdle es u0)
    {ls : List (ULabel V)} {u : UsbSys V E SC Ctx} (hu : ∀ l ∈ ls, UsbUsed a l) (hrun : u_run U ls u0 = some u) (hsm : Small U.S u.sys)
    (hlen : u.sys.client.calls.length < 2 ^ 32) {c : Nat} {cl : Call} {f : RpcFrame} {i : Nat}
    (hc : u.sys.client.calls[c]? = some cl) (hres : result cl = some (true, f, i)) :
    ∃ o ∈ u.sys.outs, ∃ j hdr e, CarriesPart U.S.enc o f ∧ o.src = .req j ∧ o.frame.body = .err e ∧
      (RequestOf u.sys c cl j hdr ∨
        ∃ (p : Nat) (pb : Pub) (b body : Bytes), u.sys.client.pubs[p]? = some pb ∧ u.sys.client.tx[j]? = some b ∧ IsFrame b hdr body ∧
          hdr.seq_no = pb.orig.header.seq_no ∧ seqVal pb.orig.header.seq_no = seqVal cl.rqst.header.seq_no) := by
  obtain ⟨ls', hu', hr⟩ := next_run hU h0 hu hrun hsm
  have inv := sys_run_inv hr hu' (sessions_start (usb_sessions hU h0).2).inv
  obtain ⟨o, ho, j, hdr, e, h1, h2, h3, h4⟩ := error_begins a U.S hD hdecl hcfg hdist hdist' inv hlen hc hres
  exact ⟨o, ho, j, hdr, e, h1, h2, h3, h4.imp request_abs id⟩

/-- C102 for answers, for devices that were idle whenever a process ended: if no send fails, the calls of the new process are all
answered, whatever the earlier ones did and whether or not tasks spawned for them reply. -/
theorem c102_answered_partial (a : App V E SC Ctx) (U : UsbCfg V E SC Ctx) (hU : UsbSound U) (hD : define_dispatch a = .ok U.S.disp)
    (hdecl : Declared a U.S.kkind) (hF : Fits a U.S) (hdepth : 0 < U.S.cfg.outgoing_depth)
    {es : List (UsbSys V E SC Ctx)} {u0 : UsbSys V E SC Ctx} (h0 : UsbSessions a U DevIdle es u0)
    {ls : List (ULabel V)} {u : UsbSys V E SC Ctx} (hu : ∀ l ∈ ls, UsbUsed a l) (hl : ∀ l ∈ ls, UsbListens a l)
    (hrun : u_run U ls u0 = some u) (hlen : u.sys.client.calls.length < 2 ^ 32) (hopen : Open u.sys) :
    (¬ ∃ (f : Nat → UsbSys V E SC Ctx) (g : Nat → ULabel V), f 0 = u ∧
      ∀ n, (Small U.S (f n).sys ∧ RequestsFit U (f n).sys) ∧ UsbOwn (f n) (g n) ∧ u_step U (f n) (g n) = some (f (n + 1))) ∧
    ∀ {own : List (ULabel V)} {v : UsbSys V E SC Ctx}, UsbOwnRun U u own v → Small U.S v.sys → RequestsFit U v.sys → UsbStuck U v →
      UsbAtRest v ∧ v.sys.client.calls.length = u.sys.client.calls.length ∧
        ∀ cl ∈ v.sys.client.calls, cl.phase = .dropped ∨ ∃ err f i, result cl = some (err, f, i) := by
  have start := usb_sessions_live hU hF.sends h0
  refine ⟨?_, fun {own v} ho hsm hfit hst => ?_⟩
  · rintro ⟨f, g, e0, hf⟩
    have inv := usb_run_live hD hdecl hF hU start (e0 ▸ (hf 0).1.1) (e0 ▸ (hf 0).1.2) hlen (fun l h => ⟨hu l h, hl l h⟩) hrun
    exact usb_own_finite hD hdecl hF hU inv hlen ⟨f, g, e0, hf⟩
  · have hg := u_run_grows (usb_own_run ho)
    have inv := usb_run_live hD hdecl hF hU start (small_before hsm hg.1) (fit_before hfit hg.2) hlen (fun l h => ⟨hu l h, hl l h⟩) hrun
    obtain ⟨i1, i2, i3⟩ := usb_own_inv hD hdecl hF hU ho inv hsm hfit hlen
    have hrest := usb_stuck_rest hU hF hdepth i1 (i2 hopen) hst
    refine ⟨hrest, i3, fun cl hcl => ?_⟩
    obtain ⟨c, hc⟩ := List.mem_iff_getElem?.mp hcl
    obtain ⟨h1, _⟩ := usb_stuck hU hF i1 (i2 hopen) hst
    exact rest_answered i1.sys i1.live (stuck_atRest hdepth hF i1.sys i1.live (i2 hopen) h1) (c := c) hc

/-- C102, the context is kept: a device that was idle when the last process ended takes the first message of the new one with the
context it had then. -/
theorem c102_context_kept (a : App V E SC Ctx) (U : UsbCfg V E SC Ctx) (hU : UsbSound U) {es : List (UsbSys V E SC Ctx)}
    {e u0 : UsbSys V E SC Ctx} (h0 : UsbSessions a U DevIdle (es ++ [e]) u0) {ls : List (ULabel V)} {u : UsbSys V E SC Ctx}
    (hu : ∀ l ∈ ls, UsbUsed a l) (hrun : u_run U ls u0 = some u) (hsm : Small U.S u.sys) :
    (u.sys.before = [] ∧ u.sys.srv.ctx = e.sys.srv.ctx) ∨ u.sys.before[0]? = some e.sys.srv.ctx := by
  obtain ⟨ls', _, hr⟩ := next_run hU h0 hu hrun hsm
  have hs := (usb_sessions hU h0).2
  rw [List.map_append] at hs
  have h := c77_context_kept a U.S hs hr
  exact h

/-! ### Concrete sessions -/

theorem exCalmApp_declared : Declared exCalmApp exCalm.kkind := ⟨by decide, by decide, by decide, by decide, exSysApp_declared.sends⟩

theorem exCalm_fits : Fits exCalmApp exCalm :=
  ⟨exSys_fits.sends, exSys_fits.err_key, exSys_fits.apart, exSys_fits.resp_err, exSys_fits.topic_err, by decide, exSys_fits.counters⟩

theorem exCalm_none : ∀ h ∈ exCalmApp.eps, h.flavor ≠ .spawn := by
  intro h hm e
  obtain ⟨g, hg, rfl⟩ := List.mem_map.mp hm
  split at e
  · cases e
  · rename_i hn
    exact hn e

def exUsbCalm : UsbCfg Nat WireTxErrorKind Nat Nat := ⟨exCalm, 128, false, 1⟩

theorem exUsbCalm_sound : UsbSound exUsbCalm := ⟨⟨2, rfl⟩, by decide, by decide⟩

theorem exUsbCalm_small (s : Sys Nat WireTxErrorKind Nat Nat) : Small exUsbCalm.S s := by
  refine small_of_enc s fun o _ => ?_
  cases o.frame.body <;> simp [exUsbCalm, exCalm, exSys, exEnc]

instance decUsbUsedCalm (l : ULabel Nat) : Decidable (UsbUsed exCalmApp l) :=
  decidable_of_iff (UsbUsed exSysApp l) (by cases l <;> exact Iff.rfl)

instance decUsbListensCalm (l : ULabel Nat) : Decidable (UsbListens exCalmApp l) :=
  decidable_of_iff (UsbListens exSysApp l) (by cases l <;> exact Iff.rfl)

/-- The first process sends a request, which reaches the device's endpoint, and ends. -/
def exGone : List (ULabel Nat) := usbCall 0 3#8 0x83#8 [1] ++ [.client .out_poll, .client .out_recv, .host_packet]

/-- The second process begins a call; before its request is sent the device handles the one of the first. -/
def exHeir : List (ULabel Nat) :=
  usbCall 0 3#8 0x83#8 [50] ++ [.dev_read, .flush, .dev_write .ok] ++ usbRecv [0x20, 0x83, 0, 0, 0, 0, 1] (some ⟨0, false⟩) ++
  [.client (.call_ok 0)]

/-- The first process has sent one of two packets of its second request when it ends. -/
def exHalf : List (ULabel Nat) :=
  usbCall 0 3#8 0x83#8 [1] ++ usbCall 1 3#8 0x83#8 (List.replicate 60 1) ++
  [.client .out_poll, .client .out_recv, .host_packet, .dev_read, .client (.out_done true), .client .out_recv, .flush, .dev_write .ok,
    .host_packet, .dev_read]

/-- The request of the second process is taken for the end of that one. -/
def exSwallowed : List (ULabel Nat) :=
  usbCall 0 3#8 0x83#8 [50] ++
  [.client .out_poll, .client .out_recv, .host_packet, .dev_read, .flush, .client (.out_done true), .client .out_yield, .client .out_poll,
    .dev_write .ok] ++ usbRecv [0x20, 0xE0, 1, 0, 0, 0, 0xEE] none ++ [.client .in_poll]

/-- The first process gets its answer and ends. -/
def exCalmFirst : List (ULabel Nat) :=
  exGone ++ [.client (.out_done true), .client .out_yield, .dev_read, .flush, .dev_write .ok] ++
  usbRecv [0x20, 0x83, 0, 0, 0, 0, 1] (some ⟨0, false⟩) ++ [.client (.call_ok 0)]

/-- The second process gets its answer. -/
def exCalmSecond : List (ULabel Nat) :=
  usbCall 0 3#8 0x83#8 [50] ++ [.client .out_poll, .client .out_recv, .host_packet, .client (.out_done true), .client .out_yield, .dev_read,
    .flush, .dev_write .ok] ++ usbRecv [0x20, 0x83, 0, 0, 0, 0, 51] (some ⟨0, false⟩) ++ [.client (.call_ok 0)]

/-- Two sessions, one after the other. -/
theorem exUsbTwo {α : Type} {P : UsbSys Nat WireTxErrorKind Nat Nat → Prop} {l1 l2 : List (ULabel Nat)}
    (h1 : ∀ l ∈ l1, UsbUsed exCalmApp l) {n : Nat} (hn : n < 2 ^ 32) {b : Bool} (hb : b = true)
    {k : UsbSys Nat WireTxErrorKind Nat Nat → Bool} {g : UsbSys Nat WireTxErrorKind Nat Nat → α} {x : α}
    (h : (u_run exUsbCalm l1 (UsbSys.new 0)).map (fun u => (u.sys.client.calls.length, k u)) = some (n, b))
    (hk : ∀ u, k u = true → P u)
    (h2 : ((u_run exUsbCalm l1 (UsbSys.new 0)).bind fun u => u_run exUsbCalm l2 u.next).map g = some x) :
    ∃ u1 u2, UsbSessions exCalmApp exUsbCalm P [u1] u1.next ∧ u_run exUsbCalm l2 u1.next = some u2 ∧ g u2 = x := by
  obtain ⟨u1, e1, e2⟩ := Option.map_eq_some_iff.mp h
  simp only [Prod.mk.injEq] at e2
  rw [e1] at h2
  obtain ⟨u2, e3, e4⟩ := Option.map_eq_some_iff.mp h2
  exact ⟨u1, u2, .next [] _ u1 l1 (.first 0) h1 e1 (exUsbCalm_small _) (by omega) (hk u1 (e2.2.trans hb)), e3, e4⟩

set_option synthInstance.maxSize 1000 in
/-- C102 is false for replies: the call of the new process returns the reply to a request the one before left in the device's
endpoint; its own request has not been sent. -/
theorem c102_replies_false : ¬ C102Replies := by
  intro h
  obtain ⟨u1, u2, hs, e1, e2⟩ := exUsbTwo (P := fun _ => True) (k := fun _ => true) (l1 := exGone) (l2 := exHeir)
    (g := fun u => (u.sys.client.calls.map result, u.sys.client.tx))
    (x := ([some (false, ⟨⟨.Key1 ⟨0x83⟩, .Seq4 0⟩, [1]⟩, 0)], [])) (by decide) (n := 1) (by decide) rfl (by decide +kernel) (fun _ _ => trivial)
    (by decide +kernel)
  simp only [Prod.mk.injEq] at e2
  obtain ⟨e3, e4⟩ := e2
  have hl : u2.sys.client.calls.length = 1 := by simpa using congrArg List.length e3
  have hr : (u2.sys.client.calls.map result)[0]? = some (some (false, ⟨⟨.Key1 ⟨0x83⟩, .Seq4 0⟩, [1]⟩, 0)) := by rw [e3]; rfl
  rw [List.getElem?_map] at hr
  obtain ⟨cl, hc, hres⟩ := Option.map_eq_some_iff.mp hr
  obtain ⟨o, ho, j, hdr, req, _, hreq, _⟩ := h _ _ _ _ exCalmApp exUsbCalm exUsbCalm_sound exCalmApp_ok exCalmApp_declared exCalm_fits exCalm_none
    _ _ hs exHeir u2 (by decide) e1 (exUsbCalm_small _) (by intro b hb; rw [e4] at hb; cases hb) (by omega) 0 cl _ _ hc hres
  obtain ⟨b, hb, _⟩ := hreq.sent
  rw [e4] at hb
  cases hb

/-- Nothing is left to do. -/
def atRestB (u : UsbSys Nat WireTxErrorKind Nat Nat) : Bool :=
  !u.sys.client.stopped && u.sys.client.handles && decide (u.sys.client.out_pc = .recv) && u.sys.client.outq.isEmpty &&
  decide (u.sys.client.in_pc = .recv) && u.sys.client.pubs.isEmpty && u.sys.client.woken.isEmpty && decide (u.sys.taken = 1) &&
  u.sys.pending.isEmpty && u.sys.tasks.isEmpty && u.sys.air.isEmpty && u.bus_out.isEmpty && u.ep_out.isEmpty &&
  decide (u.rx = .filling []) && u.sending.isNone && u.cur.isEmpty

set_option synthInstance.maxSize 1000 in
/-- C102 is false for answers: the device takes the new process's request for the end of one of which it had received a part, and
nobody ever answers the call. -/
theorem c102_answered_false : ¬ C102Answered := by
  intro h
  obtain ⟨u1, u2, hs, e1, e2⟩ := exUsbTwo (P := fun _ => True) (k := fun _ => true) (l1 := exHalf) (l2 := exSwallowed)
    (g := fun u => (u.sys.client.calls.map Call.phase, u.sys.client.tx.map List.length, atRestB u))
    (x := ([.waiting .Key8], [14], true)) (by decide) (n := 2) (by decide) rfl
    (by decide +kernel) (fun _ _ => trivial) (by decide +kernel)
  simp only [Prod.mk.injEq] at e2
  obtain ⟨e3, e4, e5⟩ := e2
  have hl : u2.sys.client.calls.length = 1 := by simpa using congrArg List.length e3
  have hph : ∀ (c : Nat) (cl : Call), u2.sys.client.calls[c]? = some cl → cl.phase = .waiting .Key8 := by
    intro c cl hc
    have : cl.phase ∈ u2.sys.client.calls.map Call.phase := List.mem_map.mpr ⟨cl, List.mem_of_getElem? hc, rfl⟩
    rw [e3] at this
    exact List.mem_singleton.mp this
  have htx : u2.sys.client.tx.length = 1 := by simpa using congrArg List.length e4
  have hfit : RequestsFit exUsbCalm u2.sys := by
    intro b hb
    have : b.length ∈ u2.sys.client.tx.map List.length := List.mem_map.mpr ⟨b, hb, rfl⟩
    rw [e4] at this
    have := List.mem_singleton.mp this
    show b.length < 128
    omega
  have hrest : UsbAtRest u2 := by
    simp only [atRestB, Bool.and_eq_true, decide_eq_true_eq, List.isEmpty_iff, Bool.not_eq_true', Option.isNone_iff_eq_none] at e5
    obtain ⟨⟨⟨⟨⟨⟨⟨⟨⟨⟨⟨⟨⟨⟨⟨a1, a2⟩, a3⟩, a4⟩, a5⟩, a6⟩, a7⟩, a8⟩, a9⟩, a10⟩, a11⟩, a12⟩, a13⟩, a14⟩, a15⟩, a16⟩ := e5
    refine ⟨⟨⟨⟨a1, a2⟩, ⟨a3, a4⟩, a5, ?_, fun c cl hc => .inr (.inr ⟨⟨_, hph c cl hc⟩, ?_⟩)⟩, ?_, a9, ?_, a11⟩, ⟨a12, a13, a14⟩, a15, a16⟩
    · intro p hp; rw [a6] at hp; cases hp
    · intro w hw; rw [a7] at hw; cases hw
    · rw [a8, htx]
    · intro i j t ht; rw [a10] at ht; simp at ht
  cases hc : u2.sys.client.calls with
  | nil => rw [hc] at hl; cases hl
  | cons cl cs =>
    have hcl := hph 0 cl (by rw [hc]; rfl)
    rcases h _ _ _ _ exCalmApp exUsbCalm exUsbCalm_sound exCalmApp_ok exCalmApp_declared exCalm_fits exCalm_none
      _ _ hs exSwallowed u2 (by decide) (by decide) e1 (exUsbCalm_small _) hfit (by omega) hrest cl (by rw [hc]; exact List.mem_cons_self ..)
      with h | ⟨err, f, i, h⟩
    · rw [hcl] at h; cases h
    · simp [result, hcl] at h

/-- It is no different when the request has been handled and its reply is still to be sent, … -/
example : ∃ u1 u2, UsbSessions exCalmApp exUsbCalm (fun _ => True) [u1] u1.next ∧
    u_run exUsbCalm (usbCall 0 3#8 0x83#8 [50] ++ [.flush, .dev_write .ok] ++ usbRecv [0x20, 0x83, 0, 0, 0, 0, 1] (some ⟨0, false⟩) ++
      [.client (.call_ok 0)]) u1.next = some u2 ∧
    (u2.sys.client.calls.map result, u2.sys.client.tx) = ([some (false, ⟨⟨.Key1 ⟨0x83⟩, .Seq4 0⟩, [1]⟩, 0)], []) :=
  exUsbTwo (P := fun _ => True) (k := fun _ => true) (l1 := exGone ++ [.dev_read]) (g := fun u => (u.sys.client.calls.map result, u.sys.client.tx))
    (by decide) (n := 1) (by decide) rfl (by decide +kernel) (fun _ _ => trivial) (by decide +kernel)

/-- … or is being sent. -/
example : ∃ u1 u2, UsbSessions exCalmApp exUsbCalm (fun _ => True) [u1] u1.next ∧
    u_run exUsbCalm (usbCall 0 3#8 0x83#8 [50] ++ [.dev_write .ok] ++ usbRecv [0x20, 0x83, 0, 0, 0, 0, 1] (some ⟨0, false⟩) ++
      [.client (.call_ok 0)]) u1.next = some u2 ∧
    (u2.sys.client.calls.map result, u2.sys.client.tx) = ([some (false, ⟨⟨.Key1 ⟨0x83⟩, .Seq4 0⟩, [1]⟩, 0)], []) :=
  exUsbTwo (P := fun _ => True) (k := fun _ => true) (l1 := exGone ++ [.dev_read, .flush]) (g := fun u => (u.sys.client.calls.map result, u.sys.client.tx))
    (by decide) (n := 1) (by decide) rfl (by decide +kernel) (fun _ _ => trivial) (by decide +kernel)

/-- The device was idle. -/
def devIdleB (u : UsbSys Nat WireTxErrorKind Nat Nat) : Bool :=
  u.ep_out.isEmpty && decide (u.rx = .filling []) && u.sending.isNone && u.sys.pending.isEmpty

theorem devIdleB_ok (u : UsbSys Nat WireTxErrorKind Nat Nat) (h : devIdleB u = true) : DevIdle u := by
  simp only [devIdleB, Bool.and_eq_true, decide_eq_true_eq, List.isEmpty_iff, Option.isNone_iff_eq_none] at h
  exact ⟨h.1.1.1, h.1.1.2, h.1.2, h.2⟩

set_option synthInstance.maxSize 1000 in
/-- The theorems for devices that were idle apply: the new process's call returns the reply to its own request, computed in the
context the earlier one's request has left. -/
example : UsbSound exUsbCalm ∧ define_dispatch exCalmApp = .ok exUsbCalm.S.disp ∧ Declared exCalmApp exUsbCalm.S.kkind ∧
    Fits exCalmApp exUsbCalm.S ∧ 0 < exUsbCalm.S.cfg.outgoing_depth ∧ (∀ h ∈ exCalmApp.eps, h.flavor ≠ .spawn) ∧
    (∀ l ∈ exCalmSecond, UsbUsed exCalmApp l ∧ UsbListens exCalmApp l) ∧ ∃ u1 u2, UsbSessions exCalmApp exUsbCalm DevIdle ([] ++ [u1]) u1.next ∧
      u_run exUsbCalm exCalmSecond u1.next = some u2 ∧ Small exUsbCalm.S u2.sys ∧ u2.sys.client.calls.length < 2 ^ 32 ∧ Open u2.sys ∧
      u2.sys.client.calls.map result = [some (false, ⟨⟨.Key1 ⟨0x83⟩, .Seq4 0⟩, [51]⟩, 0)] ∧ u2.sys.before = [1] := by
  refine ⟨exUsbCalm_sound, exCalmApp_ok, exCalmApp_declared, exCalm_fits, by decide, exCalm_none, by decide, ?_⟩
  obtain ⟨u1, u2, hs, e1, e2⟩ := exUsbTwo (P := DevIdle) (k := devIdleB) (l1 := exCalmFirst) (l2 := exCalmSecond)
    (g := fun u => (u.sys.client.calls.map result, u.sys.client.stopped, u.sys.client.handles, u.sys.before))
    (x := ([some (false, ⟨⟨.Key1 ⟨0x83⟩, .Seq4 0⟩, [51]⟩, 0)], false, true, [1])) (by decide) (n := 1) (by decide) rfl
    (by decide +kernel) devIdleB_ok (by decide +kernel)
  simp only [Prod.mk.injEq] at e2
  have hl : u2.sys.client.calls.length = 1 := by simpa using congrArg List.length e2.1
  exact ⟨u1, u2, hs, e1, exUsbCalm_small _, by omega, ⟨e2.2.1, e2.2.2.1⟩, e2.1, e2.2.2.2⟩

/-- An earlier request that cannot be decoded: the theorem on errors applies to the second process. -/
def exCalmBad : List (ULabel Nat) :=
  usbCall 0 3#8 0x83#8 [1, 2] ++ [.client .out_poll, .client .out_recv, .host_packet, .client (.out_done true), .client .out_yield, .dev_read,
    .flush, .dev_write .ok] ++ usbRecv [0x20, 0xE0, 0, 0, 0, 0, 0xEE] (some ⟨0, true⟩) ++ [.client (.call_err 0)]

set_option synthInstance.maxSize 1000 in
example : (∀ l ∈ exCalmBad, UsbUsed exCalmApp l) ∧ ∃ u1 u2, UsbSessions exCalmApp exUsbCalm DevIdle [u1] u1.next ∧
    u_run exUsbCalm exCalmBad u1.next = some u2 ∧ u2.sys.client.calls.map result = [some (true, ⟨⟨.Key1 ⟨0xE0⟩, .Seq4 0⟩, [0xEE]⟩, 0)] := by
  refine ⟨by decide, ?_⟩
  exact exUsbTwo (P := DevIdle) (k := devIdleB) (l1 := exCalmFirst) (l2 := exCalmBad) (g := fun u => u.sys.client.calls.map result)
    (by decide) (n := 1) (by decide) rfl (by decide +kernel) devIdleB_ok (by decide +kernel)

end PRpc.Props
