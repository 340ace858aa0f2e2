import Verif.Props.SkewLater
import Verif.Props.SkewUsb
import Verif.Props.RawUsb
/-! C108 over a USB cable: a board and hosts of different versions, one after the other. -/

namespace PRpc.Props

open Spec

variable {V E SC Ctx : Type}

theorem usb_hosts {a : App V E SC Ctx} {U : UsbCfg V E SC Ctx} (hU : UsbSound U) {es : List (HostIcd × UsbSys V E SC Ctx)} {u : UsbSys V E SC Ctx}
    (h : UsbHostSessions a U es u) : UsbInv U.S u ∧ HostSessions a U.S (es.map fun x => (x.1, x.2.abs)) u.abs := by
  induction h with
  | first c => exact ⟨usbInv_new U.S c, .first c⟩
  | next es u0 u H ls _ hreq hu hrun hsm hlen hi ih =>
    obtain ⟨i, s⟩ := ih
    obtain ⟨_, ls', hr, hst⟩ := sim_run hU.buffer hU.some_buffer i hsm hrun
    refine ⟨next_inv U.S hi, ?_⟩
    rw [next_abs hi, List.map_append]
    refine .next _ _ _ H ls' s hreq (fun l' hl' => ?_) hr hlen
    obtain ⟨l, hl, h⟩ := hst l' hl'
    exact stands_host h (hu l hl)
  | replug es u0 u H ls _ hreq hu hrun hsm hlen ih =>
    obtain ⟨i, s⟩ := ih
    obtain ⟨_, ls', hr, hst⟩ := sim_run hU.buffer hU.some_buffer i hsm hrun
    refine ⟨replug_inv U.S u, ?_⟩
    rw [replug_abs, List.map_append]
    refine .next _ _ _ H ls' s hreq (fun l' hl' => ?_) hr hlen
    obtain ⟨l, hl, h⟩ := hst l' hl'
    exact stands_host h (hu l hl)

/-- A session of a host over the cable, seen as one over links that carry whole messages. -/
theorem usb_host_run {a : App V E SC Ctx} {U : UsbCfg V E SC Ctx} {H : HostIcd} (hU : UsbSound U) {es : List (HostIcd × UsbSys V E SC Ctx)}
    {u0 : UsbSys V E SC Ctx} (h0 : UsbHostSessions a U es u0) {ls : List (ULabel V)} {u : UsbSys V E SC Ctx}
    (hu : ∀ l ∈ ls, UsbHostUses a H l) (hrun : u_run U ls u0 = some u) (hsm : Small U.S u.sys) :
    ∃ ls', (∀ l ∈ ls', HostUses a H l) ∧ sys_run U.S ls' u0.abs = some u.abs := by
  obtain ⟨_, ls', hr, hst⟩ := sim_run hU.buffer hU.some_buffer (usb_hosts hU h0).1 hsm hrun
  refine ⟨ls', fun l' hl' => ?_, hr⟩
  obtain ⟨l, hl, h⟩ := hst l' hl'
  exact stands_host h (hu l hl)

/-- C108 over the cable: as `c108_not_misread`. -/
theorem c108_usb_not_misread (a : App V E SC Ctx) (U : UsbCfg V E SC Ctx) (hU : UsbSound U) (H : HostIcd) (hb : SoundBoard a U.S)
    (hreq : RequestsApart a H (keyLen U.S.disp.n)) {es : List (HostIcd × UsbSys V E SC Ctx)} {u0 : UsbSys V E SC Ctx} (h0 : UsbHostSessions a U es u0)
    {ls : List (ULabel V)} {u : UsbSys V E SC Ctx} (hu : ∀ l ∈ ls, UsbHostUses a H l)
    (hrun : u_run U ls u0 = some u) (hsm : Small U.S u.sys) (hlen : u.sys.client.calls.length < 2 ^ 32) {j : Nat} {b body : Bytes} {hdr : VarHeader}
    (hj : u.sys.client.tx[j]? = some b) (hf : IsFrame b hdr body) :
    (∀ h, ForEndpoint U.S.disp hdr h → ∃ c cl, RequestOf u.sys c cl j hdr ∧ cl.rqst.header.key = .Key8 h.req ∧ cl.rqst.body = body) ∧
    (∀ t, ForTopic U.S.disp hdr t → ∃ (p : Nat) (pb : Pub), u.sys.client.pubs[p]? = some pb ∧ pb.orig.header.key = .Key8 t.key ∧
      pb.orig.header.seq_no = hdr.seq_no ∧ pb.orig.body = body) ∧
    (∀ k, k = a.std.ping_req ∨ k = a.std.schemas_req → LongEnough U.S.disp hdr → rxShort U.S.disp hdr = short (keyLen U.S.disp.n) k →
      ∃ c cl, RequestOf u.sys c cl j hdr ∧ cl.rqst.header.key = .Key8 k ∧ cl.rqst.body = body) := by
  obtain ⟨ls', hu', hr⟩ := usb_host_run hU h0 hu hrun hsm
  obtain ⟨h1, h2, h3⟩ := c108_not_misread a U.S H hb hreq (usb_hosts hU h0).2 hu' hr hlen hj hf
  refine ⟨fun h hh => ?_, h2, fun k hk hl hx => ?_⟩
  · obtain ⟨c, cl, g, e⟩ := h1 h hh
    exact ⟨c, cl, request_abs g, e⟩
  · obtain ⟨c, cl, g, e⟩ := h3 k hk hl hx
    exact ⟨c, cl, request_abs g, e⟩

/-- C108 over the cable: as `c108_replies`. -/
theorem c108_usb_replies (a : App V E SC Ctx) (U : UsbCfg V E SC Ctx) (hU : UsbSound U) (H : HostIcd) (hb : SoundBoard a U.S)
    (hreq : RequestsApart a H (keyLen U.S.disp.n)) (hresp : AnswersApart a H (keyLen U.S.kkind)) {es : List (HostIcd × UsbSys V E SC Ctx)}
    {u0 : UsbSys V E SC Ctx} (h0 : UsbHostSessions a U es u0) {ls : List (ULabel V)}
    {u : UsbSys V E SC Ctx} (hu : ∀ l ∈ ls, UsbHostUses a H l) (hrun : u_run U ls u0 = some u) (hsm : Small U.S u.sys)
    (hlen : u.sys.client.calls.length < 2 ^ 32) {c : Nat} {cl : Call} {f : RpcFrame} {i : Nat} (hc : u.sys.client.calls[c]? = some cl)
    (hres : result cl = some (false, f, i)) :
    ∃ o ∈ u.sys.outs, CarriesPart U.S.enc o f ∧
      ((∃ req, cl.rqst.header.key = .Key8 req ∧ (req, cl.resp_key) ∈ handledPairs U.S.disp ∧
          ∃ j hdr, RequestOf u.sys c cl j hdr ∧ ReplyTo U.S.disp u.sys j hdr cl.rqst.body req cl.resp_key o) ∨
        ∃ k j t, StaleReply U.S.disp u.sys cl.resp_key o k j t ∧ ∃ x ∈ es, ∃ c' cl', SameNumber U.S.disp x.2.sys c' cl' cl j t) := by
  obtain ⟨ls', hu', hr⟩ := usb_host_run hU h0 hu hrun hsm
  obtain ⟨o, ho, h1, h⟩ := c108_replies a U.S H hb hreq hresp (usb_hosts hU h0).2 hu' hr hlen hc hres
  refine ⟨o, ho, h1, ?_⟩
  rcases h with ⟨req, g1, g2, j, hdr, g3, g4⟩ | ⟨k, j, t, g, x, hx, c', cl', g'⟩
  · exact .inl ⟨req, g1, g2, j, hdr, request_abs g3, reply_abs g4⟩
  · obtain ⟨y, hy, rfl⟩ := List.mem_map.mp hx
    exact .inr ⟨k, j, t, stale_abs g, y, hy, c', cl', request_abs g'.request, g'.number, g'.handler⟩

/-- C108 over the cable: as `c108_unknown_no_reply`. -/
theorem c108_usb_unknown_no_reply (a : App V E SC Ctx) (U : UsbCfg V E SC Ctx) (hU : UsbSound U) (H : HostIcd) (hb : SoundBoard a U.S)
    (hreq : RequestsApart a H (keyLen U.S.disp.n)) (hresp : AnswersApart a H (keyLen U.S.kkind)) {es : List (HostIcd × UsbSys V E SC Ctx)}
    {u0 : UsbSys V E SC Ctx} (h0 : UsbHostSessions a U es u0) {ls : List (ULabel V)}
    {u : UsbSys V E SC Ctx} (hu : ∀ l ∈ ls, UsbHostUses a H l) (hrun : u_run U ls u0 = some u) (hsm : Small U.S u.sys)
    (hlen : u.sys.client.calls.length < 2 ^ 32) {c : Nat} {cl : Call} {req : Key} (hc : u.sys.client.calls[c]? = some cl)
    (hk : cl.rqst.header.key = .Key8 req) (hn : (req, cl.resp_key) ∉ handledPairs U.S.disp)
    (hnone : es = [] ∨ ∀ h ∈ U.S.disp.eps, h.resp = cl.resp_key → h.flavor ≠ .spawn) :
    ∀ f i, result cl ≠ some (false, f, i) := by
  obtain ⟨ls', hu', hr⟩ := usb_host_run hU h0 hu hrun hsm
  exact c108_unknown_no_reply a U.S H hb hreq hresp (usb_hosts hU h0).2 hu' hr hlen hc hk hn (hnone.imp (fun e => by rw [e]; rfl) id)

/-- C108 over the cable: as `c108_errors`. -/
theorem c108_usb_errors (a : App V E SC Ctx) (U : UsbCfg V E SC Ctx) (hU : UsbSound U) (H : HostIcd) (hb : SoundBoard a U.S)
    (hreq : RequestsApart a H (keyLen U.S.disp.n)) (hresp : AnswersApart a H (keyLen U.S.kkind)) {es : List (HostIcd × UsbSys V E SC Ctx)}
    {u0 : UsbSys V E SC Ctx} (h0 : UsbHostSessions a U es u0) {ls : List (ULabel V)}
    {u : UsbSys V E SC Ctx} (hu : ∀ l ∈ ls, UsbHostUses a H l) (hrun : u_run U ls u0 = some u) (hsm : Small U.S u.sys)
    (hlen : u.sys.client.calls.length < 2 ^ 32) {c : Nat} {cl : Call} {f : RpcFrame} {i : Nat} (hc : u.sys.client.calls[c]? = some cl)
    (hres : result cl = some (true, f, i)) :
    ∃ o ∈ u.sys.outs, ∃ j hdr body e, CarriesPart U.S.enc o f ∧ o.src = .req j ∧ o.frame.body = .err e ∧
      RefusedAt U.S.disp U.S.kkind u.sys j hdr body e ∧
      ((RequestOf u.sys c cl j hdr ∧ body = cl.rqst.body ∧ ∀ req, cl.rqst.header.key = .Key8 req →
          (req ∉ handledKeys U.S.disp → (e = .UnknownKey ∨ e = .KeyTooSmall) ∧ (keyLen U.S.disp.n ≤ keyLen U.S.kkind → e = .UnknownKey)) ∧
          (req ∈ handledKeys U.S.disp → keyLen U.S.disp.n ≤ keyLen U.S.kkind → e = .DeserFailed ∨ e = .SerFailed ∨ e = .FailedToSpawn)) ∨
        ∃ (p : Nat) (pb : Pub), u.sys.client.pubs[p]? = some pb ∧ hdr.seq_no = pb.orig.header.seq_no ∧
          seqVal pb.orig.header.seq_no = seqVal cl.rqst.header.seq_no) := by
  obtain ⟨ls', hu', hr⟩ := usb_host_run hU h0 hu hrun hsm
  obtain ⟨o, ho, j, hdr, body, e, h1, h2, h3, h4, h5⟩ := c108_errors a U.S H hb hreq hresp (usb_hosts hU h0).2 hu' hr hlen hc hres
  exact ⟨o, ho, j, hdr, body, e, h1, h2, h3, refused_abs h4, h5.imp (fun h => ⟨request_abs h.1, h.2⟩) id⟩

/-- C108 over the cable: as `c108_unknown_no_effect`. -/
theorem c108_usb_unknown_no_effect (a : App V E SC Ctx) (U : UsbCfg V E SC Ctx) (hU : UsbSound U) (H : HostIcd) (hb : SoundBoard a U.S)
    (hreq : RequestsApart a H (keyLen U.S.disp.n)) {es : List (HostIcd × UsbSys V E SC Ctx)}
    {u0 : UsbSys V E SC Ctx} (h0 : UsbHostSessions a U es u0) {ls : List (ULabel V)}
    {u : UsbSys V E SC Ctx} (hu : ∀ l ∈ ls, UsbHostUses a H l) (hrun : u_run U ls u0 = some u) (hsm : Small U.S u.sys)
    {c j : Nat} {cl : Call} {hdr : VarHeader} {req : Key} (hq : RequestOf u.sys c cl j hdr)
    (hk : cl.rqst.header.key = .Key8 req) (hn : req ∉ handledKeys U.S.disp) :
    (j < u.sys.taken → ∃ ctx, (contexts u.sys)[j]? = some ctx ∧ (contexts u.sys)[j + 1]? = some ctx) ∧
    ∀ (i : Nat) (x : Nat × Task V SC), u0.sys.tasks.length ≤ i → u.sys.tasks[i]? = some x → x.1 ≠ j := by
  obtain ⟨ls', hu', hr⟩ := usb_host_run hU h0 hu hrun hsm
  exact c108_unknown_no_effect a U.S H hb hreq (usb_hosts hU h0).2 hu' hr (s := u.abs) ⟨hq.call, hq.sent, hq.key, hq.seq, hq.only⟩ hk hn

/-- Nothing prevents the calls of a new host from being answered. -/
theorem usb_hosts_live {a : App V E SC Ctx} {U : UsbCfg V E SC Ctx} (hU : UsbSound U) (hs : ∀ log f, U.S.env.send log f = none)
    {es : List (HostIcd × UsbSys V E SC Ctx)} {u : UsbSys V E SC Ctx} (h : UsbHostSessions a U es u) (H : HostIcd) : UsbLive (withHost a H) U u := by
  obtain ⟨i, s⟩ := usb_hosts hU h
  have hw : WholeInv u ∧ u.rx ≠ .draining := by
    clear i s
    induction h with
    | first c => exact ⟨wholeInv_new c, by intro h; cases h⟩
    | next es u0 u H ls _ _ hu hrun hsm hlen hi ih =>
      have w := whole_run hs ih.1 hrun
      refine ⟨⟨w.log, w.pending, fun x hx => ?_, fun _ _ => rfl, fun o ho => nomatch ho⟩, fun e => ?_⟩
      · have : u.sending = some x := hx
        rw [hi.sending] at this; cases this
      · have : u.rx = .draining := e
        rw [hi.receiver] at this; cases this
    | replug es u0 u H ls _ _ hu hrun hsm hlen ih =>
      have w := whole_run hs ih.1 hrun
      exact ⟨⟨w.log, (fun o ho => nomatch ho), (fun x hx => nomatch hx), (fun _ _ => rfl), fun o ho => nomatch ho⟩, fun e => nomatch e⟩
  exact ⟨i, hw.1, hw.2, (host_start s).inv H, (host_start s).live H⟩

/-- C108 over the cable: as `c108_answered`, unless the system comes to a message that is too long for the host's transfers or the
board's buffer. -/
theorem c108_usb_answered (a : App V E SC Ctx) (U : UsbCfg V E SC Ctx) (hU : UsbSound U) (H : HostIcd) (hb : SoundBoard a U.S)
    (hfit : Fits a U.S) (hdepth : 0 < U.S.cfg.outgoing_depth) (hreq : RequestsApart a H (keyLen U.S.disp.n))
    (hresp : AnswersApart a H (keyLen U.S.kkind)) (hsame : SameAnswers a H) {es : List (HostIcd × UsbSys V E SC Ctx)}
    {u0 : UsbSys V E SC Ctx} (h0 : UsbHostSessions a U es u0) {ls : List (ULabel V)} {u : UsbSys V E SC Ctx}
    (hu : ∀ l ∈ ls, UsbHostUses a H l) (hl : ∀ l ∈ ls, UsbHostListens H l) (hrun : u_run U ls u0 = some u)
    (hlen : u.sys.client.calls.length < 2 ^ 32) (hopen : Open u.sys) {own : List (ULabel V)} {v : UsbSys V E SC Ctx}
    (ho : UsbOwnRun U u own v) (hsm : Small U.S v.sys) (hrf : RequestsFit U v.sys) :
    (∃ more w, UsbOwnRun U v more w ∧ (¬ (Small U.S w.sys ∧ RequestsFit U w.sys) ∨ UsbStuck U w)) ∧
    (UsbStuck U v → UsbAtRest v ∧ v.sys.client.calls.length = u.sys.client.calls.length ∧
      ∀ cl ∈ v.sys.client.calls, cl.phase = .dropped ∨ ∃ err f i, result cl = some (err, f, i)) := by
  have hD := host_dispatches (dispatches hb.disp).toRoutes hreq hsame
  have hdecl := host_declared hb.decl H
  have hF := host_fits hfit hresp
  have hg := u_run_grows (usb_own_run ho)
  have inv := usb_run_live hD hdecl hF hU (usb_hosts_live hU hfit.sends h0 H) (small_before hsm hg.1) (fit_before hrf hg.2) hlen
    (fun l h => by
      have h1 := hu l h
      have h2 := hl l h
      cases l with
      | client l => exact ⟨host_used (H := H) h1, host_listens h2⟩
      | app_publish k q w => exact ⟨host_used (H := H) (l := .app_publish k q w) h1, trivial⟩
      | _ => exact ⟨trivial, trivial⟩) hrun
  obtain ⟨i1, i2, i3⟩ := usb_own_inv hD hdecl hF hU ho inv hsm hrf hlen
  refine ⟨usb_to_stuck hD hdecl hF hU i1 (by omega), fun hst => ?_⟩
  refine ⟨usb_stuck_rest hU hF hdepth i1 (i2 hopen) hst, i3, fun cl hcl => ?_⟩
  obtain ⟨c, hc⟩ := List.mem_iff_getElem?.mp hcl
  obtain ⟨h1, _⟩ := usb_stuck hU hF i1 (i2 hopen) hst
  exact rest_answered i1.sys i1.live (stuck_atRest hdepth hF i1.sys i1.live (i2 hopen) h1) (c := c) hc

/-! ### Concrete hosts -/

/-- A host built with the board's version. -/
def exSame : HostIcd := ⟨[⟨[], exKey 3#8, exKey 0x83#8⟩], [], []⟩

theorem exCalm_board : SoundBoard exCalmApp exUsbCalm.S := ⟨exCalmApp_ok, exCalmApp_declared, rfl, exCalm_fits.apart, by decide⟩

theorem exSame_requests : RequestsApart exCalmApp exSame (keyLen exUsbCalm.S.disp.n) := ⟨by decide +kernel, by decide +kernel⟩

theorem exNewer_requests_calm : RequestsApart exCalmApp exNewer (keyLen exUsbCalm.S.disp.n) := ⟨by decide +kernel, by decide +kernel⟩

theorem exNewer_answers_calm : AnswersApart exCalmApp exNewer (keyLen exUsbCalm.S.kkind) :=
  ⟨⟨by decide +kernel, by decide +kernel⟩, by decide +kernel⟩

instance decUsbHostUsesCalm (H : HostIcd) (l : ULabel Nat) : Decidable (UsbHostUses exCalmApp H l) := by
  cases l with
  | client l => cases l <;> simp only [UsbHostUses, HostUses] <;> infer_instance
  | _ => simp only [UsbHostUses, HostUses] <;> infer_instance

/-- The second host calls an endpoint the board does not know. -/
def exUsbNewer : List (ULabel Nat) :=
  usbCall 0 0x15#8 0x85#8 [1] ++ [.client .out_poll, .client .out_recv, .host_packet, .client (.out_done true), .client .out_yield, .dev_read,
    .flush, .dev_write .ok] ++ usbRecv [0x20, 0xE0, 0, 0, 0, 0, 0xEE] (some ⟨0, true⟩) ++ [.client (.call_err 0)]

set_option synthInstance.maxSize 1000 in
/-- The theorems apply: in the second session the call of the endpoint the board does not know gets an error. -/
example : UsbSound exUsbCalm ∧ Fits exCalmApp exUsbCalm.S ∧ 0 < exUsbCalm.S.cfg.outgoing_depth ∧ SameAnswers exCalmApp exNewer ∧
    (∀ l ∈ exUsbNewer, UsbHostListens exNewer l) ∧ SoundBoard exCalmApp exUsbCalm.S ∧ RequestsApart exCalmApp exNewer (keyLen exUsbCalm.S.disp.n) ∧
    AnswersApart exCalmApp exNewer (keyLen exUsbCalm.S.kkind) ∧ (∀ l ∈ exUsbNewer, UsbHostUses exCalmApp exNewer l) ∧
    exKey 0x15#8 ∉ handledKeys exUsbCalm.S.disp ∧ (exKey 0x15#8, exKey 0x85#8) ∉ handledPairs exUsbCalm.S.disp ∧
    (∀ h ∈ exUsbCalm.S.disp.eps, h.flavor ≠ .spawn) ∧
    ∃ u1 u2, UsbHostSessions exCalmApp exUsbCalm ([] ++ [(exSame, u1)]) u1.next ∧ u_run exUsbCalm exUsbNewer u1.next = some u2 ∧
      Small exUsbCalm.S u2.sys ∧ UsbOwnRun exUsbCalm u2 [] u2 ∧ u2.sys.client.calls.map result = [some (true, ⟨⟨.Key1 ⟨0xE0⟩, .Seq4 0⟩, [0xEE]⟩, 0)] := by
  refine ⟨exUsbCalm_sound, exCalm_fits, by decide, by unfold SameAnswers; decide +kernel, by decide, exCalm_board, exNewer_requests_calm, exNewer_answers_calm, by decide, by decide, by decide, exCalm_none, ?_⟩
  have h : ((u_run exUsbCalm exCalmFirst (UsbSys.new 0)).bind fun u => (u_run exUsbCalm exUsbNewer u.next).map fun t =>
      ((u.sys.client.calls.length, devIdleB u), t.sys.client.calls.map result)) =
      some ((1, true), [some (true, ⟨⟨.Key1 ⟨0xE0⟩, .Seq4 0⟩, [0xEE]⟩, 0)]) := by decide +kernel
  obtain ⟨s, h1, h⟩ := Option.bind_eq_some_iff.mp h
  obtain ⟨t, h2, h⟩ := Option.map_eq_some_iff.mp h
  simp only [Prod.mk.injEq] at h
  exact ⟨s, t, .next [] _ s exSame exCalmFirst (.first 0) exSame_requests (by decide) h1 (exUsbCalm_small _) (by rw [h.1.1]; decide)
    (devIdleB_ok s h.1.2), h2, exUsbCalm_small _, .nil _, h.2⟩

end PRpc.Props
