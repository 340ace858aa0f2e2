import Verif.Props.RawUsb
import Verif.Props.Postcard
/-! Typed calls and pings over a USB cable, in every session of a device: C84 and C85. -/

namespace PRpc.Props

open Spec

variable {V E SC Ctx : Type}

/-- C84 in every session, for devices idle between them: of a reply of which a failed send may have cut the end, the call returns what
its decoder makes of the whole, or a decoding error, if the decoder rejects what is cut.  The reply is the one to its own request or,
after other sessions, that of a task spawned in one of them. -/
theorem c84_typed_reply_later (a : App V E SC Ctx) (U : UsbCfg V E SC Ctx) (hU : UsbSound U) (hD : define_dispatch a = .ok U.S.disp)
    (hdecl : Declared a U.S.kkind) (hapart : KeysApart a U.S)
    (hdist : ∀ r ∈ a.endpoint_list.endpoints, short (keyLen U.S.kkind) r.resp ≠ short (keyLen U.S.kkind) a.std.error)
    {es : List (UsbSys V E SC Ctx)} {u0 : UsbSys V E SC Ctx} (h0 : UsbSessions a U DevIdle es u0)
    {ls : List (ULabel V)} {u : UsbSys V E SC Ctx} (hu : ∀ l ∈ ls, UsbUsed a l)
    (hrun : u_run U ls u0 = some u) (hsm : Small U.S u.sys)
    (hlen : u.sys.client.calls.length < 2 ^ 32) {R W : Type} (decode : Bytes → Option R) (decode_err : Bytes → Option W)
    {c : Nat} {cl : Call} {f : RpcFrame} {i : Nat}
    (hc : u.sys.client.calls[c]? = some cl) (hres : cl.phase = .done (.Resp f i)) :
    ∃ o ∈ u.sys.outs,
      ((∃ j hdr req, RequestOf u.sys c cl j hdr ∧ cl.rqst.header.key = .Key8 req ∧
          ReplyTo U.S.disp u.sys j hdr cl.rqst.body req cl.resp_key o) ∨
        (es ≠ [] ∧ ∃ k j t, StaleReply U.S.disp u.sys cl.resp_key o k j t)) ∧
      CarriesPart U.S.enc o f ∧
      (RejectsCut decode (U.S.enc o.frame.body) →
        (∀ v, finish_call decode decode_err (.Resp f i) = .Ok v → Carries U.S.enc o f ∧ decode (U.S.enc o.frame.body) = some v) ∧
        (¬ Carries U.S.enc o f → finish_call decode decode_err (.Resp f i) = .Postcard)) := by
  obtain ⟨ls', hu', hr⟩ := next_run hU h0 hu hrun hsm
  obtain ⟨o, ho, h, h1⟩ := c74_typed_reply_later a U.S hD hdecl hapart hdist (usb_sessions hU h0).2 hu' hr hlen decode decode_err
    (s := u.abs) hc hres
  refine ⟨o, ho, ?_, h1⟩
  rcases h with ⟨j, hdr, req, h2, h3, h4⟩ | ⟨hne, k, j, t, h2⟩
  · exact .inl ⟨j, hdr, req, request_abs h2, h3, reply_abs h4⟩
  · exact .inr ⟨fun e => hne (by rw [e]; rfl), k, j, t, stale_abs h2⟩

/-- C84 for errors, in every session. -/
theorem c84_typed_error_later (a : App V E SC Ctx) (U : UsbCfg V E SC Ctx) (hU : UsbSound U) (hD : define_dispatch a = .ok U.S.disp)
    (hdecl : Declared a U.S.kkind) (hcfg : U.S.cfg.err_key = a.std.error)
    (hdist : ∀ r ∈ a.endpoint_list.endpoints, short (keyLen U.S.kkind) r.resp ≠ short (keyLen U.S.kkind) a.std.error)
    (hdist' : ∀ t ∈ a.topic_out_list.topics, short (keyLen U.S.kkind) t.key ≠ short (keyLen U.S.kkind) a.std.error)
    {es : List (UsbSys V E SC Ctx)} {u0 : UsbSys V E SC Ctx} (h0 : UsbSessions a U DevIdle es u0)
    {ls : List (ULabel V)} {u : UsbSys V E SC Ctx} (hu : ∀ l ∈ ls, UsbUsed a l)
    (hrun : u_run U ls u0 = some u) (hsm : Small U.S u.sys)
    (hlen : u.sys.client.calls.length < 2 ^ 32) {R W : Type} (decode : Bytes → Option R) (decode_err : Bytes → Option W)
    {c : Nat} {cl : Call} {f : RpcFrame} {i : Nat}
    (hc : u.sys.client.calls[c]? = some cl) (hres : cl.phase = .done (.ErrResp f i)) :
    ∃ o ∈ u.sys.outs, ∃ j e, o.src = .req j ∧ o.frame.body = .err e ∧ CarriesPart U.S.enc o f ∧
      (RejectsCut decode_err (U.S.enc (.err e)) →
        (∀ w, finish_call decode decode_err (.ErrResp f i) = .Wire w → decode_err (U.S.enc (.err e)) = some w) ∧
        (¬ Carries U.S.enc o f → finish_call decode decode_err (.ErrResp f i) = .Postcard)) := by
  obtain ⟨ls', hu', hr⟩ := next_run hU h0 hu hrun hsm
  exact c74_typed_error a U.S hD hdecl hcfg hdist hdist' (usb_sessions hU h0).2 hu' hr hlen decode decode_err (s := u.abs) hc hres

/-- C85 (errors of calls) over the cable: the very error the device sent, or a decoding error if not all of it arrived. -/
theorem c85_usb_error_reported (a : App V E SC Ctx) (U : UsbCfg V E SC Ctx) (hU : UsbSound U) (hD : define_dispatch a = .ok U.S.disp)
    (hdecl : Declared a U.S.kkind) (hcfg : U.S.cfg.err_key = a.std.error)
    (hdist : ∀ r ∈ a.endpoint_list.endpoints, short (keyLen U.S.kkind) r.resp ≠ short (keyLen U.S.kkind) a.std.error)
    (hdist' : ∀ t ∈ a.topic_out_list.topics, short (keyLen U.S.kkind) t.key ≠ short (keyLen U.S.kkind) a.std.error)
    {encV : V → Bytes} {encN : Nty → Bytes} {w : Nat} {std : Bool} (henc : U.S.enc = enc_body encV encN w std)
    {es : List (UsbSys V E SC Ctx)} {u0 : UsbSys V E SC Ctx} (h0 : UsbSessions a U DevIdle es u0)
    {ls : List (ULabel V)} {u : UsbSys V E SC Ctx} (hu : ∀ l ∈ ls, UsbUsed a l)
    (hrun : u_run U ls u0 = some u) (hsm : Small U.S u.sys)
    (hlen : u.sys.client.calls.length < 2 ^ 32) {R : Type} (decode : Bytes → Option R)
    {c : Nat} {cl : Call} {f : RpcFrame} {i : Nat}
    (hc : u.sys.client.calls[c]? = some cl) (hres : cl.phase = .done (.ErrResp f i)) :
    ∃ o ∈ u.sys.outs, ∃ j e, o.src = .req j ∧ o.frame.body = .err e ∧ CarriesPart U.S.enc o f ∧
      (Carries U.S.enc o f → finish_call decode (from_bytes take_wire_error) (.ErrResp f i) = .Wire e) ∧
      (¬ Carries U.S.enc o f → finish_call decode (from_bytes take_wire_error) (.ErrResp f i) = .Postcard) := by
  obtain ⟨ls', hu', hr⟩ := next_run hU h0 hu hrun hsm
  exact c85_error_reported a U.S hD hdecl hcfg hdist hdist' henc (usb_sessions hU h0).2 hu' hr hlen decode (s := u.abs) hc hres

/-- C85 (ping) over the cable: a ping with number `n` that returned something returned `n` or a decoding error. -/
theorem c85_usb_ping_answer (a : App V E SC Ctx) (U : UsbCfg V E SC Ctx) (hU : UsbSound U) (hD : define_dispatch a = .ok U.S.disp)
    (hdecl : Declared a U.S.kkind) (hapart : KeysApart a U.S)
    (hdist : ∀ r ∈ a.endpoint_list.endpoints, short (keyLen U.S.kkind) r.resp ≠ short (keyLen U.S.kkind) a.std.error)
    (hkey : a.std.schemas_req ≠ a.std.ping_req) (hkeys : ∀ h ∈ a.eps, h.req ≠ a.std.ping_req)
    {encV : V → Bytes} {encN : Nty → Bytes} {w : Nat} {std : Bool} (henc : U.S.enc = enc_body encV encN w std) {val : BitVec 32 → V}
    (hping : a.ping_decode = fun b => (from_bytes take_u32 b).map val) (hval : ∀ n, encV (val n) = enc_u32 n)
    {es : List (UsbSys V E SC Ctx)} {u0 : UsbSys V E SC Ctx} (h0 : UsbSessions a U DevIdle es u0)
    (hlist : es = [] ∨ ∀ h ∈ a.eps, ∃ r ∈ a.endpoint_list.endpoints, r.req = h.req ∧ r.resp = h.resp)
    {ls : List (ULabel V)} {u : UsbSys V E SC Ctx} (hu : ∀ l ∈ ls, UsbUsed a l)
    (hrun : u_run U ls u0 = some u) (hsm : Small U.S u.sys)
    (hlen : u.sys.client.calls.length < 2 ^ 32) {W : Type} (decode_err : Bytes → Option W)
    {c : Nat} {cl : Call} {f : RpcFrame} {i : Nat} {n : BitVec 32} (hc : u.sys.client.calls[c]? = some cl)
    (hrq : cl.rqst.header.key = .Key8 a.std.ping_req) (hbody : cl.rqst.body = enc_u32 n) (hres : cl.phase = .done (.Resp f i)) :
    finish_call (from_bytes take_u32) decode_err (.Resp f i) = .Ok n ∨ finish_call (from_bytes take_u32) decode_err (.Resp f i) = .Postcard := by
  obtain ⟨ls', hu', hr⟩ := next_run hU h0 hu hrun hsm
  refine c85_ping_answer a U.S hD hdecl hapart hdist hkey hkeys henc hping hval (usb_sessions hU h0).2 ?_ hu' hr hlen decode_err (s := u.abs) hc hrq hbody hres
  rcases hlist with rfl | h
  · exact .inl rfl
  · exact .inr h

/-! ### Concrete sessions -/

def exPcUsb : UsbCfg Nat WireTxErrorKind Nat Nat := ⟨exPcSys, 128, false, 1⟩

/-- A ping with the number 300 over the cable. -/
def exUsbPing : List (ULabel Nat) :=
  usbCall 0 1#8 1#8 [0xAC, 0x02] ++ [.client .out_poll, .client .out_recv, .host_packet, .client (.out_done true), .client .out_yield, .dev_read,
    .flush, .dev_write .ok] ++ usbRecv [0x20, 1, 0, 0, 0, 0, 0xAC, 0x02] (some ⟨0, false⟩) ++ [.client (.call_ok 0)]

/-- A ping without a number. -/
def exUsbBadPing : List (ULabel Nat) :=
  usbCall 0 1#8 1#8 [] ++ [.client .out_poll, .client .out_recv, .host_packet, .client (.out_done true), .client .out_yield, .dev_read,
    .flush, .dev_write .ok] ++ usbRecv [0x20, 0xE0, 0, 0, 0, 0, 2] (some ⟨0, true⟩) ++ [.client (.call_err 0)]

instance decUsbUsedPcLater (l : ULabel Nat) : Decidable (UsbUsed exPcApp l) := by
  cases l with
  | client l => cases l <;> simp only [UsbUsed, Used] <;> infer_instance
  | _ => simp only [UsbUsed] <;> infer_instance

def smallB (u : UsbSys Nat WireTxErrorKind Nat Nat) : Bool := u.sys.outs.all fun o => decide ((exPcUsb.S.enc o.frame.body).length ≤ 1010)

theorem smallB_ok (u : UsbSys Nat WireTxErrorKind Nat Nat) (h : smallB u = true) : Small exPcUsb.S u.sys :=
  small_of_enc _ fun o ho => of_decide_eq_true (List.all_eq_true.mp h o ho)

/-- The theorems apply to the second of two sessions: a ping that returns its number, and one that returns `DeserFailed`. -/
theorem exPcUsb_second {l : List (ULabel Nat)} {ph : Phase}
    (h : ((u_run exPcUsb exUsbPing (UsbSys.new 0)).bind fun u => (u_run exPcUsb l u.next).map fun t =>
      ((u.sys.client.calls.length, devIdleB u, smallB u), t.sys.client.calls.map (·.phase), smallB t)) = some ((1, true, true), [ph], true)) :
    ∃ u1 u2, UsbSessions exPcApp exPcUsb DevIdle ([] ++ [u1]) u1.next ∧ u_run exPcUsb l u1.next = some u2 ∧ Small exPcUsb.S u2.sys ∧
      u2.sys.client.calls.map (·.phase) = [ph] := by
  obtain ⟨s, h1, h⟩ := Option.bind_eq_some_iff.mp h
  obtain ⟨t, h2, h⟩ := Option.map_eq_some_iff.mp h
  simp only [Prod.mk.injEq] at h
  obtain ⟨⟨e1, e2, e3⟩, e4, e5⟩ := h
  exact ⟨s, t, .next [] _ s exUsbPing (.first 0) (by decide) h1 (smallB_ok s e3) (by rw [e1]; decide) (devIdleB_ok s e2), h2,
    smallB_ok t e5, e4⟩

set_option synthInstance.maxSize 1000 in
example : UsbSound exPcUsb ∧ define_dispatch exPcApp = .ok exPcUsb.S.disp ∧ Declared exPcApp exPcUsb.S.kkind ∧ KeysApart exPcApp exPcUsb.S ∧
    exPcUsb.S.cfg.err_key = exPcApp.std.error ∧
    (∀ r ∈ exPcApp.endpoint_list.endpoints, short (keyLen exPcUsb.S.kkind) r.resp ≠ short (keyLen exPcUsb.S.kkind) exPcApp.std.error) ∧
    (∀ t ∈ exPcApp.topic_out_list.topics, short (keyLen exPcUsb.S.kkind) t.key ≠ short (keyLen exPcUsb.S.kkind) exPcApp.std.error) ∧
    (∀ h ∈ exPcApp.eps, ∃ r ∈ exPcApp.endpoint_list.endpoints, r.req = h.req ∧ r.resp = h.resp) ∧
    (∀ l ∈ exUsbPing ++ exUsbBadPing, UsbUsed exPcApp l) ∧
    (∃ u1 u2, UsbSessions exPcApp exPcUsb DevIdle ([] ++ [u1]) u1.next ∧ u_run exPcUsb exUsbPing u1.next = some u2 ∧ Small exPcUsb.S u2.sys ∧
      u2.sys.client.calls.map (·.phase) = [.done (.Resp ⟨⟨.Key1 ⟨1⟩, .Seq4 0⟩, [0xAC, 0x02]⟩ 0)]) ∧
    (∃ u1 u2, UsbSessions exPcApp exPcUsb DevIdle ([] ++ [u1]) u1.next ∧ u_run exPcUsb exUsbBadPing u1.next = some u2 ∧ Small exPcUsb.S u2.sys ∧
      u2.sys.client.calls.map (·.phase) = [.done (.ErrResp ⟨⟨.Key1 ⟨0xE0⟩, .Seq4 0⟩, [2]⟩ 0)]) :=
  ⟨⟨⟨2, rfl⟩, by decide, by decide⟩, exPcApp_ok, exPcApp_declared, exPcApp_apart, rfl, by decide, by decide, by decide, by decide,
    exPcUsb_second (by decide +kernel), exPcUsb_second (by decide +kernel)⟩

end PRpc.Props
