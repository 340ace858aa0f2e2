import Verif.Lemmas.WebNext
import Verif.Props.WebSys
import Verif.Props.UsbLater
/-! Pages and host processes one after the other: C109. -/

namespace PRpc.Props

open Spec

variable {V E SC Ctx : Type}

/-- C109 for replies: whichever pages and processes have used the device before, a reply a call returned is the one its endpoint's
handler gave to this call's own request, or that of a task spawned for a request of an earlier host, for the same endpoint and with the
same number. -/
theorem c109_replies (a : App V E SC Ctx) (W : WebCfg V E SC Ctx) (hU : UsbSound W.U) (hD : define_dispatch a = .ok W.U.S.disp)
    (hdecl : Declared a W.U.S.kkind) (hapart : KeysApart a W.U.S)
    (hdist : ∀ r ∈ a.endpoint_list.endpoints, short (keyLen W.U.S.kkind) r.resp ≠ short (keyLen W.U.S.kkind) a.std.error)
    {es : List (UsbSys V E SC Ctx)} {u0 : UsbSys V E SC Ctx} (h0 : WebSessions a W es u0)
    {ls : List (ULabel V)} {u : UsbSys V E SC Ctx} (hu : ∀ l ∈ ls, UsbUsed a l) (hran : HostRan W ls u0 u)
    (hlen : u.sys.client.calls.length < 2 ^ 32) {c : Nat} {cl : Call} {f : RpcFrame} {i : Nat}
    (hc : u.sys.client.calls[c]? = some cl) (hres : result cl = some (false, f, i)) :
    ∃ o ∈ u.sys.outs, CarriesPart W.U.S.enc o f ∧
      ((∃ j hdr req, RequestOf u.sys c cl j hdr ∧ cl.rqst.header.key = .Key8 req ∧
          ReplyTo W.U.S.disp u.sys j hdr cl.rqst.body req cl.resp_key o) ∨
        ∃ k j t, StaleReply W.U.S.disp u.sys cl.resp_key o k j t ∧ ∃ e ∈ es, ∃ c' cl', SameNumber W.U.S.disp e.sys c' cl' cl j t) := by
  obtain ⟨s, hcur⟩ := web_sessions hU h0
  obtain ⟨r, hsm⟩ := host_ran hU s hcur hran
  exact c102_replies_partial a W.U hU hD hdecl hapart hdist s hu r hsm hlen hc hres

/-- C109 for replies, if no endpoint's handler is spawned: always the call's own. -/
theorem c109_own_replies (a : App V E SC Ctx) (W : WebCfg V E SC Ctx) (hU : UsbSound W.U) (hD : define_dispatch a = .ok W.U.S.disp)
    (hdecl : Declared a W.U.S.kkind) (hapart : KeysApart a W.U.S)
    (hdist : ∀ r ∈ a.endpoint_list.endpoints, short (keyLen W.U.S.kkind) r.resp ≠ short (keyLen W.U.S.kkind) a.std.error)
    (hnone : ∀ h ∈ a.eps, h.flavor ≠ .spawn)
    {es : List (UsbSys V E SC Ctx)} {u0 : UsbSys V E SC Ctx} (h0 : WebSessions a W es u0)
    {ls : List (ULabel V)} {u : UsbSys V E SC Ctx} (hu : ∀ l ∈ ls, UsbUsed a l) (hran : HostRan W ls u0 u)
    (hlen : u.sys.client.calls.length < 2 ^ 32) {c : Nat} {cl : Call} {f : RpcFrame} {i : Nat}
    (hc : u.sys.client.calls[c]? = some cl) (hres : result cl = some (false, f, i)) :
    ∃ o ∈ u.sys.outs, ∃ j hdr req, CarriesPart W.U.S.enc o f ∧ RequestOf u.sys c cl j hdr ∧ cl.rqst.header.key = .Key8 req ∧
      ReplyTo W.U.S.disp u.sys j hdr cl.rqst.body req cl.resp_key o := by
  obtain ⟨s, hcur⟩ := web_sessions hU h0
  obtain ⟨r, hsm⟩ := host_ran hU s hcur hran
  exact c102_own_replies_partial a W.U hU hD hdecl hapart hdist hnone s hu r hsm hlen hc hres

/-- C109, what a typed call makes of the reply: what its decoder makes of the whole of it, or a decoding error. -/
theorem c109_typed_reply (a : App V E SC Ctx) (W : WebCfg V E SC Ctx) (hU : UsbSound W.U) (hD : define_dispatch a = .ok W.U.S.disp)
    (hdecl : Declared a W.U.S.kkind) (hapart : KeysApart a W.U.S)
    (hdist : ∀ r ∈ a.endpoint_list.endpoints, short (keyLen W.U.S.kkind) r.resp ≠ short (keyLen W.U.S.kkind) a.std.error)
    {es : List (UsbSys V E SC Ctx)} {u0 : UsbSys V E SC Ctx} (h0 : WebSessions a W es u0)
    {ls : List (ULabel V)} {u : UsbSys V E SC Ctx} (hu : ∀ l ∈ ls, UsbUsed a l) (hran : HostRan W ls u0 u)
    (hlen : u.sys.client.calls.length < 2 ^ 32) {R WE : Type} (decode : Bytes → Option R) (decode_err : Bytes → Option WE)
    {c : Nat} {cl : Call} {f : RpcFrame} {i : Nat}
    (hc : u.sys.client.calls[c]? = some cl) (hres : cl.phase = .done (.Resp f i)) :
    ∃ o ∈ u.sys.outs,
      ((∃ j hdr req, RequestOf u.sys c cl j hdr ∧ cl.rqst.header.key = .Key8 req ∧
          ReplyTo W.U.S.disp u.sys j hdr cl.rqst.body req cl.resp_key o) ∨
        (es ≠ [] ∧ ∃ k j t, StaleReply W.U.S.disp u.sys cl.resp_key o k j t)) ∧
      CarriesPart W.U.S.enc o f ∧
      (RejectsCut decode (W.U.S.enc o.frame.body) →
        (∀ v, finish_call decode decode_err (.Resp f i) = .Ok v → Carries W.U.S.enc o f ∧ decode (W.U.S.enc o.frame.body) = some v) ∧
        (¬ Carries W.U.S.enc o f → finish_call decode decode_err (.Resp f i) = .Postcard)) := by
  obtain ⟨s, hcur⟩ := web_sessions hU h0
  obtain ⟨r, hsm⟩ := host_ran hU s hcur hran
  exact c84_typed_reply_later a W.U hU hD hdecl hapart hdist s hu r hsm hlen decode decode_err hc hres

/-- C109 for errors: an error a call returned was sent in this session, for a message of the present host: the call's request or a
publication with its number. -/
theorem c109_errors (a : App V E SC Ctx) (W : WebCfg V E SC Ctx) (hU : UsbSound W.U) (hD : define_dispatch a = .ok W.U.S.disp)
    (hdecl : Declared a W.U.S.kkind) (hcfg : W.U.S.cfg.err_key = a.std.error)
    (hdist : ∀ r ∈ a.endpoint_list.endpoints, short (keyLen W.U.S.kkind) r.resp ≠ short (keyLen W.U.S.kkind) a.std.error)
    (hdist' : ∀ t ∈ a.topic_out_list.topics, short (keyLen W.U.S.kkind) t.key ≠ short (keyLen W.U.S.kkind) a.std.error)
    {es : List (UsbSys V E SC Ctx)} {u0 : UsbSys V E SC Ctx} (h0 : WebSessions a W es u0)
    {ls : List (ULabel V)} {u : UsbSys V E SC Ctx} (hu : ∀ l ∈ ls, UsbUsed a l) (hran : HostRan W ls u0 u)
    (hlen : u.sys.client.calls.length < 2 ^ 32) {c : Nat} {cl : Call} {f : RpcFrame} {i : Nat}
    (hc : u.sys.client.calls[c]? = some cl) (hres : result cl = some (true, f, i)) :
    ∃ o ∈ u.sys.outs, ∃ j hdr e, CarriesPart W.U.S.enc o f ∧ o.src = .req j ∧ o.frame.body = .err e ∧
      (RequestOf u.sys c cl j hdr ∨
        ∃ (p : Nat) (pb : Pub) (b body : Bytes), u.sys.client.pubs[p]? = some pb ∧ u.sys.client.tx[j]? = some b ∧ IsFrame b hdr body ∧
          hdr.seq_no = pb.orig.header.seq_no ∧ seqVal pb.orig.header.seq_no = seqVal cl.rqst.header.seq_no) := by
  obtain ⟨s, hcur⟩ := web_sessions hU h0
  obtain ⟨r, hsm⟩ := host_ran hU s hcur hran
  exact c102_errors_partial a W.U hU hD hdecl hcfg hdist hdist' s hu r hsm hlen hc hres

/-- C109 for answers to a page: whichever pages and processes have used the device before, page and device do not go on for ever by
themselves, and come to a halt only with nothing on the cable and every call given up or answered. -/
theorem c109_page_answered (a : App V E SC Ctx) (W : WebCfg V E SC Ctx) (hU : UsbSound W.U) (hD : define_dispatch a = .ok W.U.S.disp)
    (hdecl : Declared a W.U.S.kkind) (hF : Fits a W.U.S) (hdepth : 0 < W.U.S.cfg.outgoing_depth)
    {es : List (UsbSys V E SC Ctx)} {u0 : UsbSys V E SC Ctx} (h0 : WebSessions a W es u0)
    {ls : List (ULabel V)} {x : WebSys V E SC Ctx} (hu : ∀ l ∈ ls, UsbUsed a l) (hl : ∀ l ∈ ls, UsbListens a l)
    (hrun : w_run W ls (WebSys.opened u0) = some x) (hlen : x.u.sys.client.calls.length < 2 ^ 32) (hopen : Open x.u.sys) :
    (¬ ∃ (f : Nat → WebSys V E SC Ctx) (g : Nat → ULabel V), f 0 = x ∧
      ∀ n, (WebSmall W (f n).u.sys ∧ WebShort (f n).u.sys ∧ RequestsFit W.U (f n).u.sys) ∧ UsbOwn (f n).u (g n) ∧
        w_step W (f n) (g n) = some (f (n + 1))) ∧
    ∀ {own : List (ULabel V)} {y : WebSys V E SC Ctx}, WebOwnRun W x own y → WebSmall W y.u.sys → WebShort y.u.sys →
      RequestsFit W.U y.u.sys → WebStuck W y →
      UsbAtRest y.u ∧ y.u.sys.client.calls.length = x.u.sys.client.calls.length ∧
        ∀ cl ∈ y.u.sys.client.calls, cl.phase = .dropped ∨ ∃ err f i, result cl = some (err, f, i) := by
  obtain ⟨s, hcur⟩ := web_sessions hU h0
  have i0 := opened_inv hU h0
  refine ⟨?_, fun {own y} ho hsm hsh hfit hst => ?_⟩
  · rintro ⟨f, g, e0, hf⟩
    obtain ⟨i1, r1⟩ := web_run hU i0 (e0 ▸ (hf 0).1.1) (e0 ▸ (hf 0).1.2.1) hrun
    have inv : ∀ n, WebInv W (f n) := by
      intro n
      induction n with
      | zero => rw [e0]; exact i1
      | succ n ih => exact (web_one hU ih (hf (n + 1)).1.1 (hf (n + 1)).1.2.1 (hf n).2.2).1
    exact (c102_answered_partial a W.U hU hD hdecl hF hdepth s hu hl r1 hlen hopen).1 ⟨fun n => (f n).u, g, congrArg WebSys.u e0, fun n =>
      ⟨⟨webSmall_small (hf n).1.1, (hf n).1.2.2⟩, (hf n).2.1, (web_one hU (inv n) (hf (n + 1)).1.1 (hf (n + 1)).1.2.1 (hf n).2.2).2⟩⟩
  · have hg := w_run_grows (web_own_w_run ho)
    obtain ⟨i1, r1⟩ := web_run hU i0 (webSmall_before hsm hg.1) (webShort_before hsh hg.2) hrun
    obtain ⟨i2, r2⟩ := web_own_run hU ho i1 hsm hsh
    have lv := usb_run_live hD hdecl hF hU (usb_sessions_live hU hF.sends s) (webSmall_small (webSmall_before hsm hg.1))
      (fit_before hfit hg.2) hlen (fun l h => ⟨hu l h, hl l h⟩) r1
    obtain ⟨l1, l2, _⟩ := usb_own_inv hD hdecl hF hU r2 lv (webSmall_small hsm) hfit hlen
    exact (c102_answered_partial a W.U hU hD hdecl hF hdepth s hu hl r1 hlen hopen).2 r2 (webSmall_small hsm) hfit
      (web_stuck i2 l1 (l2 hopen) hst)

/-- C109 for answers to a process that opens the device after pages and processes. -/
theorem c109_process_answered (a : App V E SC Ctx) (W : WebCfg V E SC Ctx) (hU : UsbSound W.U) (hD : define_dispatch a = .ok W.U.S.disp)
    (hdecl : Declared a W.U.S.kkind) (hF : Fits a W.U.S) (hdepth : 0 < W.U.S.cfg.outgoing_depth)
    {es : List (UsbSys V E SC Ctx)} {u0 : UsbSys V E SC Ctx} (h0 : WebSessions a W es u0)
    {ls : List (ULabel V)} {u : UsbSys V E SC Ctx} (hu : ∀ l ∈ ls, UsbUsed a l) (hl : ∀ l ∈ ls, UsbListens a l)
    (hrun : u_run W.U ls u0 = some u) (hlen : u.sys.client.calls.length < 2 ^ 32) (hopen : Open u.sys) :
    (¬ ∃ (f : Nat → UsbSys V E SC Ctx) (g : Nat → ULabel V), f 0 = u ∧
      ∀ n, (Small W.U.S (f n).sys ∧ RequestsFit W.U (f n).sys) ∧ UsbOwn (f n) (g n) ∧ u_step W.U (f n) (g n) = some (f (n + 1))) ∧
    ∀ {own : List (ULabel V)} {v : UsbSys V E SC Ctx}, UsbOwnRun W.U u own v → Small W.U.S v.sys → RequestsFit W.U v.sys →
      UsbStuck W.U v → UsbAtRest v ∧ v.sys.client.calls.length = u.sys.client.calls.length ∧
        ∀ cl ∈ v.sys.client.calls, cl.phase = .dropped ∨ ∃ err f i, result cl = some (err, f, i) :=
  c102_answered_partial a W.U hU hD hdecl hF hdepth (web_sessions hU h0).1 hu hl hrun hlen hopen

/-- C109, the context is kept from host to host. -/
theorem c109_context_kept (a : App V E SC Ctx) (W : WebCfg V E SC Ctx) (hU : UsbSound W.U) {es : List (UsbSys V E SC Ctx)}
    {e u0 : UsbSys V E SC Ctx} (h0 : WebSessions a W (es ++ [e]) u0) {ls : List (ULabel V)} {u : UsbSys V E SC Ctx}
    (hu : ∀ l ∈ ls, UsbUsed a l) (hran : HostRan W ls u0 u) :
    (u.sys.before = [] ∧ u.sys.srv.ctx = e.sys.srv.ctx) ∨ u.sys.before[0]? = some e.sys.srv.ctx := by
  obtain ⟨s, hcur⟩ := web_sessions hU h0
  obtain ⟨r, hsm⟩ := host_ran hU s hcur hran
  exact c102_context_kept a W.U hU s hu r hsm

/-! ### Concrete sessions -/

/-- Calls of one byte with the requests 14 bytes long. -/
theorem exWeb_short {x : WebSys Nat WireTxErrorKind Nat Nat} (h : x.u.sys.client.tx.map List.length = [14]) :
    WebShort x.u.sys ∧ RequestsFit exWeb.U x.u.sys := by
  have len : ∀ b ∈ x.u.sys.client.tx, b.length = 14 := by
    intro b hb
    have : b.length ∈ x.u.sys.client.tx.map List.length := List.mem_map.mpr ⟨b, hb, rfl⟩
    rw [h] at this
    exact List.mem_singleton.mp this
  refine ⟨fun b hb => by rw [len b hb]; decide, fun b hb => ?_⟩
  show b.length < 128
  rw [len b hb]
  decide

/-- The third host's call. -/
def exThird : List (ULabel Nat) :=
  usbCall 0 3#8 0x83#8 [7] ++ [.client .out_poll, .client .out_recv, .host_packet, .client (.out_done true), .client .out_yield, .dev_read,
    .flush, .dev_write .ok] ++ usbRecv [0x20, 0x83, 0, 0, 0, 0, 9] (some ⟨0, false⟩) ++ [.client (.call_ok 0)]

set_option synthInstance.maxSize 1000 in
/-- The theorems apply: a process has called the endpoint, then a page, and now another page does, which gets its own reply. -/
example : UsbSound exWeb.U ∧ define_dispatch exCalmApp = .ok exWeb.U.S.disp ∧ Declared exCalmApp exWeb.U.S.kkind ∧
    KeysApart exCalmApp exWeb.U.S ∧ Fits exCalmApp exWeb.U.S ∧ 0 < exWeb.U.S.cfg.outgoing_depth ∧
    exWeb.U.S.cfg.err_key = exCalmApp.std.error ∧
    (∀ r ∈ exCalmApp.endpoint_list.endpoints, short (keyLen exWeb.U.S.kkind) r.resp ≠ short (keyLen exWeb.U.S.kkind) exCalmApp.std.error) ∧
    (∀ t ∈ exCalmApp.topic_out_list.topics, short (keyLen exWeb.U.S.kkind) t.key ≠ short (keyLen exWeb.U.S.kkind) exCalmApp.std.error) ∧
    (∀ h ∈ exCalmApp.eps, h.flavor ≠ .spawn) ∧
    (∀ l ∈ exThird, UsbUsed exCalmApp l ∧ UsbListens exCalmApp l) ∧
    ∃ (u1 : UsbSys Nat WireTxErrorKind Nat Nat) (x2 x3 : WebSys Nat WireTxErrorKind Nat Nat), WebSessions exCalmApp exWeb ([] ++ [u1] ++ [x2.u]) x2.u.next ∧
      w_run exWeb exThird (WebSys.opened x2.u.next) = some x3 ∧ HostRan exWeb exThird x2.u.next x3.u ∧ RequestsFit exWeb.U x3.u.sys ∧
      Open x3.u.sys ∧ WebOwnRun exWeb x3 [] x3 ∧
      x3.u.sys.client.calls.map result = [some (false, ⟨⟨.Key1 ⟨0x83⟩, .Seq4 0⟩, [9]⟩, 0)] := by
  have h : ((u_run exUsbCalm exCalmFirst (UsbSys.new 0)).bind fun u1 => (w_run exWeb exCalmSecond (WebSys.opened u1.next)).bind fun x2 =>
      (w_run exWeb exThird (WebSys.opened x2.u.next)).map fun x3 =>
        (((u1.sys.client.calls.length, devIdleB u1), x2.u.sys.client.calls.length, devIdleB x2.u), (x2.u.sys.client.tx.map List.length,
          x3.u.sys.client.tx.map List.length, x3.u.sys.client.stopped, x3.u.sys.client.handles), x3.u.sys.client.calls.map result)) =
      some (((1, true), 1, true), ([14], [14], false, true), [some (false, ⟨⟨.Key1 ⟨0x83⟩, .Seq4 0⟩, [9]⟩, 0)]) := by decide +kernel
  obtain ⟨u1, e1, h⟩ := Option.bind_eq_some_iff.mp h
  obtain ⟨x2, e2, h⟩ := Option.bind_eq_some_iff.mp h
  obtain ⟨x3, e3, h⟩ := Option.map_eq_some_iff.mp h
  simp only [Prod.mk.injEq] at h
  obtain ⟨⟨⟨l1, d1⟩, l2, d2⟩, ⟨t2, t3, o1, o2⟩, r3⟩ := h
  refine ⟨exUsbCalm_sound, exCalmApp_ok, exCalmApp_declared, exSysApp_apart, exCalm_fits, by decide, rfl, by decide, by decide, exCalm_none, by decide, u1, x2, x3, ?_,
    e3, .page _ e3 (exWeb_small _) (exWeb_short t3).1, (exWeb_short t3).2, ⟨o1, o2⟩, .nil _, r3⟩
  refine .next _ _ x2.u exCalmSecond (.next _ _ u1 exCalmFirst (.first 0) (by decide) (.process e1 (exUsbCalm_small _)) (by rw [l1]; decide)
    (devIdleB_ok u1 d1)) (by decide) (.page x2.babble e2 (exWeb_small _) (exWeb_short t2).1) (by rw [l2]; decide) (devIdleB_ok x2.u d2)

/-- The second page's call. -/
def exReload : List (ULabel Nat) :=
  usbCall 0 3#8 0x83#8 [7] ++ [.client .out_poll, .client .out_recv, .host_packet, .client (.out_done true), .client .out_yield, .dev_read,
    .flush, .dev_write .ok] ++ usbRecv [0x20, 0xE0, 0, 0, 0, 0, 0xEE] (some ⟨0, true⟩) ++ [.client (.call_err 0)]

set_option synthInstance.maxSize 1000 in
/-- C109, what the condition on the requests of pages is for: a page has sent a request that fills its last packet, and waits with
nothing moving.  The page is loaded again.  The device reads the request of the new page as the end of that of the old one, and the
call of the new page returns the error for the two as one message, though its request is one that is answered on an idle device. -/
theorem c109_reload_swallows : (∀ l ∈ exWhole, UsbUsed exCalmApp l ∧ UsbListens exCalmApp l) ∧
    (∀ l ∈ exReload, UsbUsed exCalmApp l ∧ UsbListens exCalmApp l) ∧
    ∃ x1 x2, w_run exWeb exWhole (WebSys.new 0) = some x1 ∧ Open x1.u.sys ∧ WebStuck exWeb x1 ∧
      x1.u.sys.client.tx.map List.length = [64] ∧
      w_run exWeb exReload (WebSys.opened x1.u.next) = some x2 ∧ x2.u.sys.client.tx.map List.length = [14] ∧ x2.u.sys.before.length = 1 ∧
      x2.u.sys.client.calls.map result = [some (true, ⟨⟨.Key1 ⟨0xE0⟩, .Seq4 0⟩, [0xEE]⟩, 0)] := by
  have h0 : ((w_run exWeb exWhole (WebSys.new 0)).bind fun x => (w_run exWeb exReload (WebSys.opened x.u.next)).map fun y =>
      ((x.u.sys.client.calls.map Call.phase, x.u.sys.client.tx.map List.length, quietB x), y.u.sys.client.tx.map List.length,
        y.u.sys.before.length, y.u.sys.client.calls.map result)) =
      some (([.waiting .Key8], [64], true), [14], 1, [some (true, ⟨⟨.Key1 ⟨0xE0⟩, .Seq4 0⟩, [0xEE]⟩, 0)]) := by decide +kernel
  obtain ⟨x, e1, h0⟩ := Option.bind_eq_some_iff.mp h0
  obtain ⟨y, e2, h0⟩ := Option.map_eq_some_iff.mp h0
  simp only [Prod.mk.injEq] at h0
  obtain ⟨⟨p1, p2, p3⟩, p4, p5, p6⟩ := h0
  obtain ⟨ho, hst⟩ := quietB_stuck (W := exWeb) p3 fun cl hc => by
    have : cl.phase ∈ x.u.sys.client.calls.map Call.phase := List.mem_map.mpr ⟨cl, hc, rfl⟩
    rw [p1] at this
    exact .inr ⟨_, List.mem_singleton.mp this⟩
  exact ⟨by decide, by decide, x, y, e1, ho, hst, p2, e2, p4, p5, p6⟩

end PRpc.Props
