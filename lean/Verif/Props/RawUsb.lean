import Verif.Lemmas.RawUsb
import Verif.Props.Raw
import Verif.Props.Replug
/-! Raw calls (`send_resp_raw`) over a USB cable: C100. -/

namespace PRpc.Props

open Spec

variable {V E SC Ctx : Type}

theorem sent_abs {u : UsbSys V E SC Ctx} {c : Nat} {cl : Call} {j : Nat} {hdr : VarHeader} (h : SentFor u.abs c cl j hdr) :
    SentFor u.sys c cl j hdr := ⟨h.call, h.sent, h.key, h.seq⟩

theorem stale_abs {D : Dispatcher V E SC Ctx} {u : UsbSys V E SC Ctx} {resp : Key} {o : Out V} {k j : Nat} {t : Task V SC}
    (h : StaleReply D u.abs resp o k j t) : StaleReply D u.sys resp o k j t :=
  ⟨h.src, h.earlier, h.task, h.role, h.row, h.seq, h.body⟩

/-- C100 over a USB cable, what holds of every call: the reply it returned (of which a failed send may have cut the end) is the reply
to a request of a call with its sequence number, given under its response key, or that of a task spawned in an earlier session, to a
request with this number. -/
theorem c100_usb_reply_from (a : App V E SC Ctx) (U : UsbCfg V E SC Ctx) (hU : UsbSound U) (hD : define_dispatch a = .ok U.S.disp)
    (hdecl : Declared a U.S.kkind) (hapart : KeysApart a U.S)
    (hdist : ∀ r ∈ a.endpoint_list.endpoints, short (keyLen U.S.kkind) r.resp ≠ short (keyLen U.S.kkind) a.std.error)
    {es : List (UsbSys V E SC Ctx)} {u0 : UsbSys V E SC Ctx} (h0 : UsbSessions a U DevIdle es u0)
    {ls : List (ULabel V)} {u : UsbSys V E SC Ctx} (hu : ∀ l ∈ ls, UsbUsedRaw a l) (hrun : u_run U ls u0 = some u)
    (hsm : Small U.S u.sys) {c : Nat} {cl : Call} {f : RpcFrame} {i : Nat}
    (hc : u.sys.client.calls[c]? = some cl) (hres : result cl = some (false, f, i)) :
    ∃ o ∈ u.sys.outs, CarriesPart U.S.enc o f ∧
      ((∃ c' cl' j hdr req, SentFor u.sys c' cl' j hdr ∧ cl'.rqst.header.key = .Key8 req ∧
          seqVal cl'.rqst.header.seq_no = seqVal cl.rqst.header.seq_no ∧ ReplyTo U.S.disp u.sys j hdr cl'.rqst.body req cl.resp_key o) ∨
        ∃ k j t, StaleReply U.S.disp u.sys cl.resp_key o k j t ∧ seqVal t.hdr.seq_no = seqVal cl.rqst.header.seq_no) := by
  have inv := raw_run hU h0 hu hrun hsm
  obtain ⟨o, ho, ⟨c', cl', j, hdr, req, h1, h2, h3, h4, h5⟩ | ⟨h1, k, j, t, h2, h3⟩⟩ :=
    reply_from a U.S hD hdecl hapart hdist inv (s := u.abs) hc hres
  · exact ⟨o, ho, h1, .inl ⟨c', cl', j, hdr, req, sent_abs h2, h3, h4, reply_abs h5⟩⟩
  · exact ⟨o, ho, h1, .inr ⟨k, j, t, stale_abs h2, h3⟩⟩

/-- C100 over a USB cable for a call that is the only one of the session with its sequence number: it gets the reply to its own
request, or that of a task spawned in an earlier session, to a request with this number.  Missing: calls that take the number of an
earlier one. -/
theorem c100_usb_own_reply_partial (a : App V E SC Ctx) (U : UsbCfg V E SC Ctx) (hU : UsbSound U)
    (hD : define_dispatch a = .ok U.S.disp) (hdecl : Declared a U.S.kkind) (hapart : KeysApart a U.S)
    (hdist : ∀ r ∈ a.endpoint_list.endpoints, short (keyLen U.S.kkind) r.resp ≠ short (keyLen U.S.kkind) a.std.error)
    {es : List (UsbSys V E SC Ctx)} {u0 : UsbSys V E SC Ctx} (h0 : UsbSessions a U DevIdle es u0)
    {ls : List (ULabel V)} {u : UsbSys V E SC Ctx} (hu : ∀ l ∈ ls, UsbUsedRaw a l) (hrun : u_run U ls u0 = some u)
    (hsm : Small U.S u.sys) {c : Nat} {cl : Call} {f : RpcFrame} {i : Nat}
    (hc : u.sys.client.calls[c]? = some cl) (honly : OnlyOne u.sys.client c cl) (hres : result cl = some (false, f, i)) :
    ∃ o ∈ u.sys.outs, CarriesPart U.S.enc o f ∧
      ((∃ j hdr req, RequestOf u.sys c cl j hdr ∧ cl.rqst.header.key = .Key8 req ∧
          ReplyTo U.S.disp u.sys j hdr cl.rqst.body req cl.resp_key o) ∨
        ∃ k j t, StaleReply U.S.disp u.sys cl.resp_key o k j t ∧ seqVal t.hdr.seq_no = seqVal cl.rqst.header.seq_no) := by
  have inv := raw_run hU h0 hu hrun hsm
  obtain ⟨o, ho, ⟨j, hdr, req, h1, h2, h3, h4⟩ | ⟨h1, k, j, t, h2, h3⟩⟩ :=
    reply_own a U.S hD hdecl hapart hdist inv (s := u.abs) honly hc hres
  · exact ⟨o, ho, h1, .inl ⟨j, hdr, req, request_abs h2, h3, reply_abs h4⟩⟩
  · exact ⟨o, ho, h1, .inr ⟨k, j, t, stale_abs h2, h3⟩⟩

/-- C100 over a USB cable, errors: an error a call returned is one the device sent, in this session, for the request of a call or for
a publication with the call's sequence number; if no other call and no publication has this number, for its own request. -/
theorem c100_usb_error_from (a : App V E SC Ctx) (U : UsbCfg V E SC Ctx) (hU : UsbSound U) (hD : define_dispatch a = .ok U.S.disp)
    (hdecl : Declared a U.S.kkind) (hcfg : U.S.cfg.err_key = a.std.error)
    (hdist : ∀ r ∈ a.endpoint_list.endpoints, short (keyLen U.S.kkind) r.resp ≠ short (keyLen U.S.kkind) a.std.error)
    (hdist' : ∀ t ∈ a.topic_out_list.topics, short (keyLen U.S.kkind) t.key ≠ short (keyLen U.S.kkind) a.std.error)
    {es : List (UsbSys V E SC Ctx)} {u0 : UsbSys V E SC Ctx} (h0 : UsbSessions a U DevIdle es u0)
    {ls : List (ULabel V)} {u : UsbSys V E SC Ctx} (hu : ∀ l ∈ ls, UsbUsedRaw a l) (hrun : u_run U ls u0 = some u)
    (hsm : Small U.S u.sys) {c : Nat} {cl : Call} {f : RpcFrame} {i : Nat}
    (hc : u.sys.client.calls[c]? = some cl) (hres : result cl = some (true, f, i)) :
    ∃ o ∈ u.sys.outs, ∃ j hdr e, CarriesPart U.S.enc o f ∧ o.src = .req j ∧ o.frame.body = .err e ∧
      ((∃ c' cl', SentFor u.sys c' cl' j hdr ∧ seqVal cl'.rqst.header.seq_no = seqVal cl.rqst.header.seq_no) ∨
        ∃ (p : Nat) (pb : Pub) (b body : Bytes), u.sys.client.pubs[p]? = some pb ∧ u.sys.client.tx[j]? = some b ∧ IsFrame b hdr body ∧
          hdr.seq_no = pb.orig.header.seq_no ∧ seqVal pb.orig.header.seq_no = seqVal cl.rqst.header.seq_no) ∧
      (OnlyOne u.sys.client c cl → (∀ pb ∈ u.sys.client.pubs, seqVal pb.orig.header.seq_no ≠ seqVal cl.rqst.header.seq_no) →
        RequestOf u.sys c cl j hdr) := by
  have inv := raw_run hU h0 hu hrun hsm
  obtain ⟨o, ho, j, hdr, e, h1, h2, h3, h4⟩ := error_from a U.S hD hdecl hcfg hdist hdist' inv (s := u.abs) hc hres
  refine ⟨o, ho, j, hdr, e, h1, h2, h3.body, ?_, ?_⟩
  · rcases h4 with ⟨c', cl', g1, g2, _⟩ | h4
    · exact .inl ⟨c', cl', sent_abs g1, g2⟩
    · exact .inr h4
  · intro honly hpub
    rcases h4 with ⟨c', cl', hs, hseq, _⟩ | ⟨p, pb, _, _, hp, _, _, _, hseq⟩
    · have ec : c' = c := honly c' cl' hs.call hseq
      subst ec
      have ee := hc.symm.trans hs.call
      cases ee
      exact ⟨hc, hs.sent, hs.key, hs.seq, fun c2 cl2 g e2 => honly c2 cl2 g (by rw [e2, hs.seq])⟩
    · exact absurd hseq (hpub pb (List.mem_of_getElem? hp))

/-- C100 over a USB cable, answers: if all calls of the session have different sequence numbers, no send fails and messages fit, an
open client and its device left to themselves come to an end after finitely many steps, whichever they take, and then every call,
typed or raw, was given up by its caller or has returned an answer. -/
theorem c100_usb_answered (a : App V E SC Ctx) (U : UsbCfg V E SC Ctx) (hU : UsbSound U) (hD : define_dispatch a = .ok U.S.disp)
    (hdecl : Declared a U.S.kkind) (hF : Fits a U.S) (hdepth : 0 < U.S.cfg.outgoing_depth)
    {es : List (UsbSys V E SC Ctx)} {u0 : UsbSys V E SC Ctx} (h0 : UsbSessions a U DevIdle es u0)
    {ls : List (ULabel V)} {u : UsbSys V E SC Ctx} (hu : ∀ l ∈ ls, UsbUsedRaw a l) (hl : ∀ l ∈ ls, UsbListens a l)
    (hrun : u_run U ls u0 = some u) (hn : (numbers u.sys.client).Nodup) (hopen : Open u.sys) :
    (¬ ∃ (f : Nat → UsbSys V E SC Ctx) (g : Nat → ULabel V), f 0 = u ∧
      ∀ n, (Small U.S (f n).sys ∧ RequestsFit U (f n).sys) ∧ UsbOwn (f n) (g n) ∧ u_step U (f n) (g n) = some (f (n + 1))) ∧
    ∀ {own : List (ULabel V)} {v : UsbSys V E SC Ctx}, UsbOwnRun U u own v → Small U.S v.sys → RequestsFit U v.sys → UsbStuck U v →
      UsbAtRest v ∧ v.sys.client.calls.length = u.sys.client.calls.length ∧
        ∀ cl ∈ v.sys.client.calls, cl.phase = .dropped ∨ ∃ err f i, result cl = some (err, f, i) := by
  have i0 := (usb_sessions_live hU hF.sends h0).raw
  refine ⟨?_, ?_⟩
  · rintro ⟨f, g, hf0, hf⟩
    have inv := usb_run_liveR hD hdecl hF hU i0 (hf0 ▸ (hf 0).1.1) (hf0 ▸ (hf 0).1.2) hn (fun l h => ⟨hu l h, hl l h⟩) hrun
    exact usb_own_finiteR hD hdecl hF hU inv hn ⟨f, g, hf0, hf⟩
  · intro own v ho hsm hfit hst
    have hg := u_run_grows (usb_own_run ho)
    have inv := usb_run_liveR hD hdecl hF hU i0 (small_before hsm hg.1) (fit_before hfit hg.2) hn (fun l h => ⟨hu l h, hl l h⟩) hrun
    obtain ⟨i1, i2, i3⟩ := usb_own_invR hD hdecl hF hU ho inv hsm hfit hn
    have hrest := usb_stuck_rest hU hF hdepth i1 (i2 hopen) hst
    have hlen := congrArg List.length i3
    simp only [numbers, List.length_map] at hlen
    refine ⟨hrest, hlen, fun cl hcl => ?_⟩
    obtain ⟨c, hc⟩ := List.mem_iff_getElem?.mp hcl
    obtain ⟨h1, _⟩ := usb_stuck hU hF i1 (i2 hopen) hst
    exact rest_answeredR i1.sys i1.live (stuck_atRest hdepth hF i1.sys i1.live (i2 hopen) h1) (c := c) hc

/-! ### A concrete session -/

/-- Starting raw call `c` with sequence number `n`. -/
def usbRaw (c : Nat) (n : VarSeq) (req resp : Byte) (body : Bytes) : List (ULabel Nat) :=
  (.client (.call_begin_raw ⟨⟨.Key8 (exKey req), n⟩, body⟩ (exKey resp))) :: (usbCall c req resp body).tail

/-- Two raw calls with numbers of one and of two bytes.  The first request takes two packets and cannot be decoded, the second takes
one; the second reply takes two. -/
def exRawUsb : List (ULabel Nat) :=
  usbRaw 0 (.Seq1 9) 3#8 0x83#8 (List.replicate 60 1) ++ usbRaw 1 (.Seq2 8) 3#8 0x83#8 [7] ++
  [.client .out_poll, .client .out_recv, .host_packet, .dev_read, .host_packet, .client (.out_done true), .client .out_recv, .dev_read,
    .host_packet, .flush, .dev_write .ok, .dev_read, .flush, .dev_write .ok, .client (.out_done true), .client .out_yield, .dev_write .ok] ++
  usbRecv [0x00, 0xE0, 9, 0xEE] (some ⟨0, true⟩) ++ usbRecv ([0x10, 0x83, 8, 0] ++ List.replicate 70 7) (some ⟨1, false⟩) ++
  [.client (.call_err 0), .client (.call_ok 1)]

instance decUsbUsedRaw (l : ULabel Nat) : Decidable (UsbUsedRaw exSysApp l) := by
  cases l <;> (unfold UsbUsedRaw; infer_instance)

set_option synthInstance.maxSize 1000 in
theorem exRawUsb_result : (u_run exUsb exRawUsb (UsbSys.new 0)).map (fun u =>
      (u.sys.client.calls.map result, numbers u.sys.client, u.sys.client.pubs.length, u.sys.client.stopped, u.sys.client.handles,
        u.sys.client.tx.map List.length)) =
    some ([some (true, ⟨⟨.Key1 ⟨0xE0⟩, .Seq1 9⟩, [0xEE]⟩, 0), some (false, ⟨⟨.Key1 ⟨0x83⟩, .Seq2 8⟩, List.replicate 70 7⟩, 1)],
      [9, 8], 0, false, true, [70, 12]) := by decide +kernel

set_option synthInstance.maxSize 1000 in
/-- The theorems apply to it. -/
example : UsbSound exUsb ∧ define_dispatch exSysApp = .ok exUsb.S.disp ∧ Declared exSysApp exUsb.S.kkind ∧ KeysApart exSysApp exUsb.S ∧
    Fits exSysApp exUsb.S ∧ 0 < exUsb.S.cfg.outgoing_depth ∧ exUsb.S.cfg.err_key = exSysApp.std.error ∧
    (∀ r ∈ exSysApp.endpoint_list.endpoints, short (keyLen exUsb.S.kkind) r.resp ≠ short (keyLen exUsb.S.kkind) exSysApp.std.error) ∧
    (∀ t ∈ exSysApp.topic_out_list.topics, short (keyLen exUsb.S.kkind) t.key ≠ short (keyLen exUsb.S.kkind) exSysApp.std.error) ∧
    UsbSessions exSysApp exUsb DevIdle [] (UsbSys.new 0) ∧ (∀ l ∈ exRawUsb, UsbUsedRaw exSysApp l ∧ UsbListens exSysApp l) ∧
    ∃ u, u_run exUsb exRawUsb (UsbSys.new 0) = some u ∧ Small exUsb.S u.sys ∧ RequestsFit exUsb u.sys ∧ (numbers u.sys.client).Nodup ∧
      Open u.sys ∧ u.sys.client.pubs = [] ∧
      (∃ cl f i, u.sys.client.calls[0]? = some cl ∧ OnlyOne u.sys.client 0 cl ∧ result cl = some (true, f, i)) ∧
      ∃ cl f i, u.sys.client.calls[1]? = some cl ∧ OnlyOne u.sys.client 1 cl ∧ result cl = some (false, f, i) := by
  refine ⟨exUsb_sound, exSysApp_ok, exSysApp_declared, exSysApp_apart, exUsb_fits, by decide, rfl, by decide, by decide, .first 0,
    by decide, ?_⟩
  obtain ⟨u, e1, e2⟩ := Option.map_eq_some_iff.mp exRawUsb_result
  simp only [Prod.mk.injEq] at e2
  obtain ⟨r, n, p, s, h, t⟩ := e2
  have hn : (numbers u.sys.client).Nodup := by rw [n]; decide
  have get : ∀ c x, (u.sys.client.calls.map result)[c]? = some (some x) → ∃ cl, u.sys.client.calls[c]? = some cl ∧
      OnlyOne u.sys.client c cl ∧ result cl = some x := by
    intro c x hx
    rw [List.getElem?_map] at hx
    obtain ⟨cl, e3, e4⟩ := Option.map_eq_some_iff.mp hx
    exact ⟨cl, e3, onlyOne_of_nodup hn e3, e4⟩
  obtain ⟨cl0, a1, a2, a3⟩ := get 0 _ (by rw [r]; rfl)
  obtain ⟨cl1, b1, b2, b3⟩ := get 1 _ (by rw [r]; rfl)
  refine ⟨u, e1, exUsb_small _, fun b hb => ?_, hn, ⟨s, h⟩, List.length_eq_zero_iff.mp p, ⟨cl0, _, _, a1, a2, a3⟩, ⟨cl1, _, _, b1, b2, b3⟩⟩
  have : b.length ∈ u.sys.client.tx.map List.length := List.mem_map_of_mem hb
  rw [t] at this
  simp only [List.mem_cons, List.not_mem_nil, or_false] at this
  have hx : exUsb.rxlen = 128 := rfl
  omega

end PRpc.Props
