import Verif.Spec.SkewUsb
import Verif.Props.Skew
import Verif.Props.Failed
/-! C98 over a USB cable: a host and a board of different versions. -/

namespace PRpc.Props

open Spec

variable {V E SC Ctx : Type}

theorem stands_host {a : App V E SC Ctx} {H : HostIcd} {l : ULabel V} {l' : SLabel V} (h : Stands l l') (hu : UsbHostUses a H l) :
    HostUses a H l' := by
  cases h <;> first | exact hu | trivial

/-- A session over the cable, seen as one over links that carry whole messages. -/
theorem host_over_links {a : App V E SC Ctx} {U : UsbCfg V E SC Ctx} {H : HostIcd} (hU : UsbSound U) {ls : List (ULabel V)} {c0 : Ctx}
    {u : UsbSys V E SC Ctx} (hu : ∀ l ∈ ls, UsbHostUses a H l) (hrun : u_run U ls (UsbSys.new c0) = some u) (hsm : Small U.S u.sys) :
    ∃ ls', (∀ l ∈ ls', HostUses a H l) ∧ sys_run U.S ls' (Sys.new c0) = some u.abs := by
  obtain ⟨_, ls', hr, hst⟩ := sim_run hU.buffer hU.some_buffer (usbInv_new U.S c0) hsm hrun
  refine ⟨ls', fun l' hl' => ?_, hr⟩
  obtain ⟨l, hl, h⟩ := hst l' hl'
  exact stands_host h (hu l hl)

/-- C98 over the cable: as `c98_not_misread_partial`. -/
theorem c98_usb_not_misread_partial (a : App V E SC Ctx) (U : UsbCfg V E SC Ctx) (H : HostIcd) (hU : UsbSound U) (hb : SoundBoard a U.S)
    (hreq : RequestsApart a H (keyLen U.S.disp.n)) {ls : List (ULabel V)} {c0 : Ctx} {u : UsbSys V E SC Ctx}
    (hu : ∀ l ∈ ls, UsbHostUses a H l) (hrun : u_run U ls (UsbSys.new c0) = some u) (hsm : Small U.S u.sys)
    (hlen : u.sys.client.calls.length < 2 ^ 32) {j : Nat} {b body : Bytes} {hdr : VarHeader}
    (hj : u.sys.client.tx[j]? = some b) (hf : IsFrame b hdr body) :
    (∀ h, ForEndpoint U.S.disp hdr h → ∃ c cl, RequestOf u.sys c cl j hdr ∧ cl.rqst.header.key = .Key8 h.req ∧ cl.rqst.body = body) ∧
    (∀ t, ForTopic U.S.disp hdr t → ∃ (p : Nat) (pb : Pub), u.sys.client.pubs[p]? = some pb ∧ pb.orig.header.key = .Key8 t.key ∧
      pb.orig.header.seq_no = hdr.seq_no ∧ pb.orig.body = body) ∧
    (∀ k, k = a.std.ping_req ∨ k = a.std.schemas_req → LongEnough U.S.disp hdr → rxShort U.S.disp hdr = short (keyLen U.S.disp.n) k →
      ∃ c cl, RequestOf u.sys c cl j hdr ∧ cl.rqst.header.key = .Key8 k ∧ cl.rqst.body = body) := by
  obtain ⟨ls', hu', hr⟩ := host_over_links hU hu hrun hsm
  obtain ⟨h1, h2, h3⟩ := c98_not_misread_partial a U.S H hb hreq hu' hr hlen hj hf
  refine ⟨fun h hh => ?_, h2, fun k hk hl hx => ?_⟩
  · obtain ⟨c, cl, g, e⟩ := h1 h hh
    exact ⟨c, cl, request_abs g, e⟩
  · obtain ⟨c, cl, g, e⟩ := h3 k hk hl hx
    exact ⟨c, cl, request_abs g, e⟩

/-- C98 over the cable: as `c98_replies`. -/
theorem c98_usb_replies (a : App V E SC Ctx) (U : UsbCfg V E SC Ctx) (H : HostIcd) (hU : UsbSound U) (hb : SoundBoard a U.S)
    (hreq : RequestsApart a H (keyLen U.S.disp.n)) (hresp : AnswersApart a H (keyLen U.S.kkind)) {ls : List (ULabel V)} {c0 : Ctx}
    {u : UsbSys V E SC Ctx} (hu : ∀ l ∈ ls, UsbHostUses a H l) (hrun : u_run U ls (UsbSys.new c0) = some u) (hsm : Small U.S u.sys)
    (hlen : u.sys.client.calls.length < 2 ^ 32) {c : Nat} {cl : Call} {f : RpcFrame} {i : Nat} (hc : u.sys.client.calls[c]? = some cl)
    (hres : result cl = some (false, f, i)) :
    ∃ req, cl.rqst.header.key = .Key8 req ∧ (req, cl.resp_key) ∈ handledPairs U.S.disp ∧
      ∃ o ∈ u.sys.outs, ∃ j hdr, CarriesPart U.S.enc o f ∧ RequestOf u.sys c cl j hdr ∧
        ReplyTo U.S.disp u.sys j hdr cl.rqst.body req cl.resp_key o := by
  obtain ⟨ls', hu', hr⟩ := host_over_links hU hu hrun hsm
  obtain ⟨req, h1, h2, o, ho, j, hdr, h3, h4, h5⟩ := c98_replies a U.S H hb hreq hresp hu' hr hlen hc hres
  exact ⟨req, h1, h2, o, ho, j, hdr, h3, request_abs h4, reply_abs h5⟩

/-- C98 over the cable: as `c98_errors`. -/
theorem c98_usb_errors (a : App V E SC Ctx) (U : UsbCfg V E SC Ctx) (H : HostIcd) (hU : UsbSound U) (hb : SoundBoard a U.S)
    (hreq : RequestsApart a H (keyLen U.S.disp.n)) (hresp : AnswersApart a H (keyLen U.S.kkind)) {ls : List (ULabel V)} {c0 : Ctx}
    {u : UsbSys V E SC Ctx} (hu : ∀ l ∈ ls, UsbHostUses a H l) (hrun : u_run U ls (UsbSys.new c0) = some u) (hsm : Small U.S u.sys)
    (hlen : u.sys.client.calls.length < 2 ^ 32) {c : Nat} {cl : Call} {f : RpcFrame} {i : Nat} (hc : u.sys.client.calls[c]? = some cl)
    (hres : result cl = some (true, f, i)) :
    ∃ o ∈ u.sys.outs, ∃ j hdr body e, CarriesPart U.S.enc o f ∧ o.src = .req j ∧ o.frame.body = .err e ∧
      RefusedAt U.S.disp U.S.kkind u.sys j hdr body e ∧
      ((RequestOf u.sys c cl j hdr ∧ body = cl.rqst.body ∧ ∀ req, cl.rqst.header.key = .Key8 req →
          (req ∉ handledKeys U.S.disp → (e = .UnknownKey ∨ e = .KeyTooSmall) ∧ (keyLen U.S.disp.n ≤ keyLen U.S.kkind → e = .UnknownKey)) ∧
          (req ∈ handledKeys U.S.disp → keyLen U.S.disp.n ≤ keyLen U.S.kkind → e = .DeserFailed ∨ e = .SerFailed ∨ e = .FailedToSpawn)) ∨
        ∃ (p : Nat) (pb : Pub), u.sys.client.pubs[p]? = some pb ∧ hdr.seq_no = pb.orig.header.seq_no ∧
          seqVal pb.orig.header.seq_no = seqVal cl.rqst.header.seq_no) := by
  obtain ⟨ls', hu', hr⟩ := host_over_links hU hu hrun hsm
  obtain ⟨o, ho, j, hdr, body, e, h1, h2, h3, h4, h5⟩ := c98_errors a U.S H hb hreq hresp hu' hr hlen hc hres
  exact ⟨o, ho, j, hdr, body, e, h1, h2, h3, refused_abs h4, h5.imp (fun h => ⟨request_abs h.1, h.2⟩) id⟩

/-- C98 over the cable: as `c98_unknown_no_effect`. -/
theorem c98_usb_unknown_no_effect (a : App V E SC Ctx) (U : UsbCfg V E SC Ctx) (H : HostIcd) (hU : UsbSound U) (hb : SoundBoard a U.S)
    (hreq : RequestsApart a H (keyLen U.S.disp.n)) {ls : List (ULabel V)} {c0 : Ctx} {u : UsbSys V E SC Ctx}
    (hu : ∀ l ∈ ls, UsbHostUses a H l) (hrun : u_run U ls (UsbSys.new c0) = some u) (hsm : Small U.S u.sys)
    {c j : Nat} {cl : Call} {hdr : VarHeader} {req : Key} (hq : RequestOf u.sys c cl j hdr)
    (hk : cl.rqst.header.key = .Key8 req) (hn : req ∉ handledKeys U.S.disp) :
    (j < u.sys.taken → ∃ ctx, (contexts u.sys)[j]? = some ctx ∧ (contexts u.sys)[j + 1]? = some ctx) ∧
    ∀ (i : Nat) (x : Nat × Task V SC), u.sys.tasks[i]? = some x → x.1 ≠ j := by
  obtain ⟨ls', hu', hr⟩ := host_over_links hU hu hrun hsm
  exact c98_unknown_no_effect a U.S H hb hreq hu' hr (s := u.abs) ⟨hq.call, hq.sent, hq.key, hq.seq, hq.only⟩ hk hn

/-- C98 over the cable: as `c98_answered_partial`, unless the system comes to a message that is too long for the host's transfers or the board's
buffer. -/
theorem c98_usb_answered_partial (a : App V E SC Ctx) (U : UsbCfg V E SC Ctx) (H : HostIcd) (hU : UsbSound U) (hb : SoundBoard a U.S)
    (hfit : Fits a U.S) (hdepth : 0 < U.S.cfg.outgoing_depth) (hreq : RequestsApart a H (keyLen U.S.disp.n))
    (hresp : AnswersApart a H (keyLen U.S.kkind)) (hsame : SameAnswers a H) {ls : List (ULabel V)} {c0 : Ctx} {u : UsbSys V E SC Ctx}
    (hu : ∀ l ∈ ls, UsbHostUses a H l) (hl : ∀ l ∈ ls, UsbHostListens H l) (hrun : u_run U ls (UsbSys.new c0) = some u)
    (hlen : u.sys.client.calls.length < 2 ^ 32) (hopen : Open u.sys) {own : List (ULabel V)} {v : UsbSys V E SC Ctx}
    (ho : UsbOwnRun U u own v) (hsm : Small U.S v.sys) (hrf : RequestsFit U v.sys) :
    (∃ more w, UsbOwnRun U v more w ∧ (¬ (Small U.S w.sys ∧ RequestsFit U w.sys) ∨ UsbStuck U w)) ∧
    (UsbStuck U v → UsbAtRest v ∧ v.sys.client.calls.length = u.sys.client.calls.length ∧
      ∀ cl ∈ v.sys.client.calls, cl.phase = .dropped ∨ ∃ err f i, result cl = some (err, f, i) ∧
        ∀ req, cl.rqst.header.key = .Key8 req → (req, cl.resp_key) ∉ handledPairs U.S.disp → err = true) := by
  have hR : Routes a U.S.disp := (dispatches hb.disp).toRoutes
  have hD := host_dispatches hR hreq hsame
  have hdecl := host_declared hb.decl H
  have hF := host_fits hfit hresp
  have hg := u_run_grows (usb_own_run ho)
  have inv := usb_run_live hD hdecl hF hU (usbLive_new (withHost a H) U c0) (small_before hsm hg.1) (fit_before hrf hg.2) hlen
    (fun l h => by
      have h1 := hu l h
      have h2 := hl l h
      cases l with
      | client l => exact ⟨host_used (H := H) h1, host_listens h2⟩
      | app_publish k q w => exact ⟨host_used (H := H) (l := .app_publish k q w) h1, trivial⟩
      | _ => exact ⟨trivial, trivial⟩) hrun
  obtain ⟨i1, i2, i3⟩ := usb_own_inv hD hdecl hF hU ho inv hsm hrf hlen
  refine ⟨usb_to_stuck hD hdecl hF hU i1 (by omega), fun hst => ?_⟩
  have hrest := usb_stuck_rest hU hF hdepth i1 (i2 hopen) hst
  refine ⟨hrest, i3, fun cl hcl => ?_⟩
  obtain ⟨c, hc⟩ := List.mem_iff_getElem?.mp hcl
  obtain ⟨h1, _⟩ := usb_stuck hU hF i1 (i2 hopen) hst
  rcases rest_answered i1.sys i1.live (stuck_atRest hdepth hF i1.sys i1.live (i2 hopen) h1) (c := c) hc with h | ⟨err, f, i, h⟩
  · exact .inl h
  refine .inr ⟨err, f, i, h, fun req hk hn => ?_⟩
  cases err with
  | true => rfl
  | false =>
    have hlen' : v.abs.client.calls.length < 2 ^ 32 := by show v.sys.client.calls.length < _; omega
    obtain ⟨o, hm, ⟨j, hdr, req', g1, g2, g3, g4⟩ | ⟨_, k, j, t', g, _⟩⟩ := reply_begins (withHost a H) U.S hD hdecl (host_apart hresp)
      (host_resp_err hresp) i1.sys hlen' hc h
    · rw [hk] at g3
      cases g3
      exact absurd (reply_pair g4) hn
    · have := g.earlier
      obtain ⟨_, ls', hr, _⟩ := sim_run hU.buffer hU.some_buffer (usbInv_new U.S c0) hsm (u_run_append hrun (usb_own_run ho))
      rw [sys_run_new_old hr] at this
      exact absurd this (Nat.not_lt_zero _)

/-! ### A concrete session -/

instance decUsbHostUses (H : HostIcd) (l : ULabel Nat) : Decidable (UsbHostUses exSysApp H l) := by
  cases l <;> (unfold UsbHostUses; infer_instance)

theorem exUsb_board : SoundBoard exSysApp exUsb.S where
  disp := exSysApp_ok
  decl := exSysApp_declared
  err_key := rfl
  apart := exSysApp_apart
  errs := by decide

/-- The new endpoint is called with 51 bytes, which take two packets, and endpoint 3 with one. -/
def exOtherUsb : List (ULabel Nat) :=
  usbCall 0 0x13#8 0x93#8 (List.replicate 51 1) ++ usbCall 1 3#8 0x83#8 [7] ++
  [.client .out_poll, .client .out_recv, .host_packet, .dev_read, .host_packet, .client (.out_done true), .client .out_recv, .dev_read,
    .host_packet, .flush, .dev_write .ok, .dev_read, .flush, .dev_write .ok, .client (.out_done true), .client .out_yield, .dev_write .ok] ++
  usbRecv [0x20, 0xE0, 0, 0, 0, 0, 0xEE] (some ⟨0, true⟩) ++ usbRecv ([0x20, 0x83, 1, 0, 0, 0] ++ List.replicate 70 7) (some ⟨1, false⟩) ++
  [.client (.call_err 0), .client (.call_ok 1)]

set_option synthInstance.maxSize 1000 in
theorem exOtherUsb_result : (u_run exUsb exOtherUsb (UsbSys.new 0)).map (fun u => (u.sys.client.calls.map result,
      u.sys.client.calls.map (·.rqst.header.key), contexts u.sys, u.sys.client.tx[1]?)) =
    some ([some (true, ⟨⟨.Key1 ⟨0xE0⟩, .Seq4 0⟩, [0xEE]⟩, 0), some (false, ⟨⟨.Key1 ⟨0x83⟩, .Seq4 1⟩, List.replicate 70 7⟩, 1)],
      [.Key8 (exKey 0x13#8), .Key8 (exKey 3#8)], [0, 0, 1], some [0xE0, 3, 0, 0, 0, 0, 0, 0, 0, 1, 0, 0, 0, 7]) := by decide +kernel

/-- The theorems apply: the call of the new endpoint gets an error and leaves the context as it is, that of endpoint 3 gets its reply. -/
example : UsbSound exUsb ∧ SoundBoard exSysApp exUsb.S ∧ RequestsApart exSysApp exOther (keyLen exUsb.S.disp.n) ∧
    AnswersApart exSysApp exOther (keyLen exUsb.S.kkind) ∧ (∀ l ∈ exOtherUsb, UsbHostUses exSysApp exOther l) ∧
    exKey 0x13#8 ∉ handledKeys exUsb.S.disp ∧
    ∃ u, u_run exUsb exOtherUsb (UsbSys.new 0) = some u ∧ Small exUsb.S u.sys ∧ u.sys.client.calls.length < 2 ^ 32 ∧
      contexts u.sys = [0, 0, 1] ∧
      (∃ b, u.sys.client.tx[1]? = some b ∧ IsFrame b ⟨.Key8 (exKey 3#8), .Seq4 1#32⟩ [7]) ∧
      (∃ cl f i, u.sys.client.calls[0]? = some cl ∧ cl.rqst.header.key = .Key8 (exKey 0x13#8) ∧ result cl = some (true, f, i)) ∧
      ∃ cl f i, u.sys.client.calls[1]? = some cl ∧ result cl = some (false, f, i) := by
  refine ⟨exUsb_sound, exUsb_board, exOther_requests, exOther_answers, by decide, by decide, ?_⟩
  obtain ⟨u, e1, e2⟩ := Option.map_eq_some_iff.mp exOtherUsb_result
  simp only [Prod.mk.injEq] at e2
  obtain ⟨r, k, hx, t⟩ := e2
  obtain ⟨x, y, hc⟩ : ∃ x y, u.sys.client.calls = [x, y] := by
    match hc : u.sys.client.calls with
    | [x, y] => exact ⟨x, y, rfl⟩
    | [] | [_] | _ :: _ :: _ :: _ => rw [hc] at k; simp at k
  rw [hc] at r k
  simp only [List.map_cons, List.map_nil, List.cons.injEq, and_true] at r k
  exact ⟨u, e1, exUsb_small _, by rw [hc]; simp, hx, ⟨_, t, (isFrame_iff ..).mpr rfl⟩, ⟨x, _, _, by rw [hc]; rfl, k.1, r.1⟩,
    ⟨y, _, _, by rw [hc]; rfl, r.2⟩⟩

instance decUsbHostListens (H : HostIcd) (l : ULabel Nat) : Decidable (UsbHostListens H l) := by
  cases l <;> (unfold UsbHostListens; infer_instance)

set_option synthInstance.maxSize 1000 in
/-- The theorem on answers applies to the same session. -/
example : Fits exSysApp exUsb.S ∧ 0 < exUsb.S.cfg.outgoing_depth ∧ SameAnswers exSysApp exOther ∧ (∀ l ∈ exOtherUsb, UsbHostListens exOther l) ∧
    ∃ u, u_run exUsb exOtherUsb (UsbSys.new 0) = some u ∧ Open u.sys ∧ UsbOwnRun exUsb u [] u ∧ Small exUsb.S u.sys ∧ RequestsFit exUsb u.sys := by
  have hs : SameAnswers exSysApp exOther := by unfold SameAnswers; decide +kernel
  refine ⟨exUsb_fits, by decide, hs, by decide, ?_⟩
  have h : (u_run exUsb exOtherUsb (UsbSys.new 0)).map (fun u => (u.sys.client.stopped, u.sys.client.handles, u.sys.client.tx.map List.length)) =
      some (false, true, [64, 14]) := by decide +kernel
  obtain ⟨u, e1, e2⟩ := Option.map_eq_some_iff.mp h
  simp only [Prod.mk.injEq] at e2
  refine ⟨u, e1, ⟨e2.1, e2.2.1⟩, .nil u, exUsb_small _, fun b hb => ?_⟩
  have : b.length ∈ u.sys.client.tx.map List.length := List.mem_map.mpr ⟨b, hb, rfl⟩
  rw [e2.2.2] at this
  simp only [List.mem_cons, List.not_mem_nil, or_false] at this
  show b.length < 128
  omega

end PRpc.Props
