import Verif.Props.UsbNext
/-! A USB device that is disconnected and connected again: C103. -/

namespace PRpc.Props

open Spec

variable {V E SC Ctx : Type}

theorem sessions_mono {a : App V E SC Ctx} {U : UsbCfg V E SC Ctx} {P Q : UsbSys V E SC Ctx → Prop} (h : ∀ u, P u → Q u)
    {es : List (UsbSys V E SC Ctx)} {u : UsbSys V E SC Ctx} (hs : UsbSessions a U P es u) : UsbSessions a U Q es u := by
  induction hs with
  | first c => exact .first c
  | next es u0 u ls _ hu hrun hsm hlen hp ih => exact .next es u0 u ls ih hu hrun hsm hlen (h u hp)
  | replug es u0 u ls _ hu hrun hsm hlen ih => exact .replug es u0 u ls ih hu hrun hsm hlen

/-- Connections that all ended with the device being disconnected. -/
theorem replugged {a : App V E SC Ctx} {U : UsbCfg V E SC Ctx} {es : List (UsbSys V E SC Ctx)} {u : UsbSys V E SC Ctx}
    (hs : UsbSessions a U (fun _ => False) es u) : UsbSessions a U DevIdle es u := sessions_mono (fun _ h => h.elim) hs

/-- C103: a reply a call returned (of which a failed send may have cut the end) is the one its endpoint's handler gave to this call's
own request, or that of a task spawned for an earlier connection, to a request with the same number for the same endpoint. -/
theorem c103_replies (a : App V E SC Ctx) (U : UsbCfg V E SC Ctx) (hU : UsbSound U) (hD : define_dispatch a = .ok U.S.disp)
    (hdecl : Declared a U.S.kkind) (hapart : KeysApart a U.S)
    (hdist : ∀ r ∈ a.endpoint_list.endpoints, short (keyLen U.S.kkind) r.resp ≠ short (keyLen U.S.kkind) a.std.error)
    {es : List (UsbSys V E SC Ctx)} {u0 : UsbSys V E SC Ctx} (h0 : UsbSessions a U (fun _ => False) es u0)
    {ls : List (ULabel V)} {u : UsbSys V E SC Ctx} (hu : ∀ l ∈ ls, UsbUsed a l) (hrun : u_run U ls u0 = some u) (hsm : Small U.S u.sys)
    (hlen : u.sys.client.calls.length < 2 ^ 32) {c : Nat} {cl : Call} {f : RpcFrame} {i : Nat}
    (hc : u.sys.client.calls[c]? = some cl) (hres : result cl = some (false, f, i)) :
    ∃ o ∈ u.sys.outs, CarriesPart U.S.enc o f ∧
      ((∃ j hdr req, RequestOf u.sys c cl j hdr ∧ cl.rqst.header.key = .Key8 req ∧
          ReplyTo U.S.disp u.sys j hdr cl.rqst.body req cl.resp_key o) ∨
        ∃ k j t, StaleReply U.S.disp u.sys cl.resp_key o k j t ∧ ∃ e ∈ es, ∃ c' cl', SameNumber U.S.disp e.sys c' cl' cl j t) :=
  c102_replies_partial a U hU hD hdecl hapart hdist (replugged h0) hu hrun hsm hlen hc hres

/-- C103 for applications without spawned endpoint handlers: a call returns the reply to its own request. -/
theorem c103_own_replies (a : App V E SC Ctx) (U : UsbCfg V E SC Ctx) (hU : UsbSound U) (hD : define_dispatch a = .ok U.S.disp)
    (hdecl : Declared a U.S.kkind) (hapart : KeysApart a U.S)
    (hdist : ∀ r ∈ a.endpoint_list.endpoints, short (keyLen U.S.kkind) r.resp ≠ short (keyLen U.S.kkind) a.std.error)
    (hnone : ∀ h ∈ a.eps, h.flavor ≠ .spawn)
    {es : List (UsbSys V E SC Ctx)} {u0 : UsbSys V E SC Ctx} (h0 : UsbSessions a U (fun _ => False) es u0)
    {ls : List (ULabel V)} {u : UsbSys V E SC Ctx} (hu : ∀ l ∈ ls, UsbUsed a l) (hrun : u_run U ls u0 = some u) (hsm : Small U.S u.sys)
    (hlen : u.sys.client.calls.length < 2 ^ 32) {c : Nat} {cl : Call} {f : RpcFrame} {i : Nat}
    (hc : u.sys.client.calls[c]? = some cl) (hres : result cl = some (false, f, i)) :
    ∃ o ∈ u.sys.outs, ∃ j hdr req, CarriesPart U.S.enc o f ∧ RequestOf u.sys c cl j hdr ∧ cl.rqst.header.key = .Key8 req ∧
      ReplyTo U.S.disp u.sys j hdr cl.rqst.body req cl.resp_key o :=
  c102_own_replies_partial a U hU hD hdecl hapart hdist hnone (replugged h0) hu hrun hsm hlen hc hres

/-- C103 for errors: an error a call returned is one the device sent on this connection, for a message of this connection with the
call's sequence number. -/
theorem c103_errors (a : App V E SC Ctx) (U : UsbCfg V E SC Ctx) (hU : UsbSound U) (hD : define_dispatch a = .ok U.S.disp)
    (hdecl : Declared a U.S.kkind) (hcfg : U.S.cfg.err_key = a.std.error)
    (hdist : ∀ r ∈ a.endpoint_list.endpoints, short (keyLen U.S.kkind) r.resp ≠ short (keyLen U.S.kkind) a.std.error)
    (hdist' : ∀ t ∈ a.topic_out_list.topics, short (keyLen U.S.kkind) t.key ≠ short (keyLen U.S.kkind) a.std.error)
    {es : List (UsbSys V E SC Ctx)} {u0 : UsbSys V E SC Ctx} (h0 : UsbSessions a U (fun _ => False) es u0)
    {ls : List (ULabel V)} {u : UsbSys V E SC Ctx} (hu : ∀ l ∈ ls, UsbUsed a l) (hrun : u_run U ls u0 = some u) (hsm : Small U.S u.sys)
    (hlen : u.sys.client.calls.length < 2 ^ 32) {c : Nat} {cl : Call} {f : RpcFrame} {i : Nat}
    (hc : u.sys.client.calls[c]? = some cl) (hres : result cl = some (true, f, i)) :
    ∃ o ∈ u.sys.outs, ∃ j hdr e, CarriesPart U.S.enc o f ∧ o.src = .req j ∧ o.frame.body = .err e ∧
      (RequestOf u.sys c cl j hdr ∨
        ∃ (p : Nat) (pb : Pub) (b body : Bytes), u.sys.client.pubs[p]? = some pb ∧ u.sys.client.tx[j]? = some b ∧ IsFrame b hdr body ∧
          hdr.seq_no = pb.orig.header.seq_no ∧ seqVal pb.orig.header.seq_no = seqVal cl.rqst.header.seq_no) :=
  c102_errors_partial a U hU hD hdecl hcfg hdist hdist' (replugged h0) hu hrun hsm hlen hc hres

/-- C103 for answers: if no send fails while the device is connected, all calls are answered, wherever the earlier connections were
interrupted, in the middle of a request or of a reply. -/
theorem c103_answered (a : App V E SC Ctx) (U : UsbCfg V E SC Ctx) (hU : UsbSound U) (hD : define_dispatch a = .ok U.S.disp)
    (hdecl : Declared a U.S.kkind) (hF : Fits a U.S) (hdepth : 0 < U.S.cfg.outgoing_depth)
    {es : List (UsbSys V E SC Ctx)} {u0 : UsbSys V E SC Ctx} (h0 : UsbSessions a U (fun _ => False) es u0)
    {ls : List (ULabel V)} {u : UsbSys V E SC Ctx} (hu : ∀ l ∈ ls, UsbUsed a l) (hl : ∀ l ∈ ls, UsbListens a l)
    (hrun : u_run U ls u0 = some u) (hlen : u.sys.client.calls.length < 2 ^ 32) (hopen : Open u.sys) :
    (¬ ∃ (f : Nat → UsbSys V E SC Ctx) (g : Nat → ULabel V), f 0 = u ∧
      ∀ n, (Small U.S (f n).sys ∧ RequestsFit U (f n).sys) ∧ UsbOwn (f n) (g n) ∧ u_step U (f n) (g n) = some (f (n + 1))) ∧
    ∀ {own : List (ULabel V)} {v : UsbSys V E SC Ctx}, UsbOwnRun U u own v → Small U.S v.sys → RequestsFit U v.sys → UsbStuck U v →
      UsbAtRest v ∧ v.sys.client.calls.length = u.sys.client.calls.length ∧
        ∀ cl ∈ v.sys.client.calls, cl.phase = .dropped ∨ ∃ err f i, result cl = some (err, f, i) :=
  c102_answered_partial a U hU hD hdecl hF hdepth (replugged h0) hu hl hrun hlen hopen

/-- C103, the context is kept: the first message of a connection is handled in the context there was when the last one ended. -/
theorem c103_context_kept (a : App V E SC Ctx) (U : UsbCfg V E SC Ctx) (hU : UsbSound U) {es : List (UsbSys V E SC Ctx)}
    {e u0 : UsbSys V E SC Ctx} (h0 : UsbSessions a U (fun _ => False) (es ++ [e]) u0) {ls : List (ULabel V)} {u : UsbSys V E SC Ctx}
    (hu : ∀ l ∈ ls, UsbUsed a l) (hrun : u_run U ls u0 = some u) (hsm : Small U.S u.sys) :
    (u.sys.before = [] ∧ u.sys.srv.ctx = e.sys.srv.ctx) ∨ u.sys.before[0]? = some e.sys.srv.ctx :=
  c102_context_kept a U hU (replugged h0) hu hrun hsm

/-! ### A concrete session -/

/-- The device begins to send the reply and is disconnected. -/
def exPulled : List (ULabel Nat) := exGone ++ [.client (.out_done true), .client .out_yield, .dev_read, .flush]

/-- The next connection.  The first message comes after an empty packet, which ends the message left off before. -/
def exBack (body out : Bytes) (err : Bool) : List (ULabel Nat) :=
  usbCall 0 3#8 0x83#8 body ++ [.client .out_poll, .client .out_recv, .host_packet, .client (.out_done true), .client .out_yield, .dev_read,
    .flush, .dev_write .ok, .dev_write .ok, .client .in_poll, .client (.in_recv (some []))] ++
  (usbRecv out (some ⟨0, err⟩)).tail ++ [.client (if err then .call_err 0 else .call_ok 0)]

theorem exReplug {α : Type} {l1 l2 : List (ULabel Nat)} (h1 : ∀ l ∈ l1, UsbUsed exCalmApp l)
    {g : UsbSys Nat WireTxErrorKind Nat Nat → α} {x : α}
    (h : (u_run exUsbCalm l1 (UsbSys.new 0)).map (fun u => u.sys.client.calls.length) = some 1)
    (h2 : ((u_run exUsbCalm l1 (UsbSys.new 0)).bind fun u => u_run exUsbCalm l2 u.replug).map g = some x) :
    ∃ u1 u2, UsbSessions exCalmApp exUsbCalm (fun _ => False) ([] ++ [u1]) u1.replug ∧ u_run exUsbCalm l2 u1.replug = some u2 ∧ g u2 = x := by
  obtain ⟨u1, e1, e2⟩ := Option.map_eq_some_iff.mp h
  rw [e1] at h2
  obtain ⟨u2, e3, e4⟩ := Option.map_eq_some_iff.mp h2
  exact ⟨u1, u2, .replug [] _ u1 l1 (.first 0) h1 e1 (exUsbCalm_small _) (by rw [e2]; decide), e3, e4⟩

set_option synthInstance.maxSize 1000 in
/-- The theorems apply: the call returns the reply to its own request, computed in the context the interrupted one has left. -/
example : UsbSound exUsbCalm ∧ define_dispatch exCalmApp = .ok exUsbCalm.S.disp ∧ Declared exCalmApp exUsbCalm.S.kkind ∧
    Fits exCalmApp exUsbCalm.S ∧ 0 < exUsbCalm.S.cfg.outgoing_depth ∧ (∀ h ∈ exCalmApp.eps, h.flavor ≠ .spawn) ∧
    (∀ l ∈ exBack [50] [0x20, 0x83, 0, 0, 0, 0, 51] false, UsbUsed exCalmApp l ∧ UsbListens exCalmApp l) ∧
    ∃ u1 u2, UsbSessions exCalmApp exUsbCalm (fun _ => False) ([] ++ [u1]) u1.replug ∧
      u_run exUsbCalm (exBack [50] [0x20, 0x83, 0, 0, 0, 0, 51] false) u1.replug = some u2 ∧ Small exUsbCalm.S u2.sys ∧
      u2.sys.client.calls.length < 2 ^ 32 ∧ Open u2.sys ∧
      u2.sys.client.calls.map result = [some (false, ⟨⟨.Key1 ⟨0x83⟩, .Seq4 0⟩, [51]⟩, 0)] ∧ u2.sys.before = [1] := by
  refine ⟨exUsbCalm_sound, exCalmApp_ok, exCalmApp_declared, exCalm_fits, by decide, exCalm_none, by decide, ?_⟩
  obtain ⟨u1, u2, hs, e1, e2⟩ := exReplug (l1 := exPulled) (l2 := exBack [50] [0x20, 0x83, 0, 0, 0, 0, 51] false)
    (g := fun u => (u.sys.client.calls.map result, u.sys.client.stopped, u.sys.client.handles, u.sys.before))
    (x := ([some (false, ⟨⟨.Key1 ⟨0x83⟩, .Seq4 0⟩, [51]⟩, 0)], false, true, [1])) (by decide) (by decide +kernel) (by decide +kernel)
  simp only [Prod.mk.injEq] at e2
  have hl : u2.sys.client.calls.length = 1 := by simpa using congrArg List.length e2.1
  exact ⟨u1, u2, hs, e1, exUsbCalm_small _, by omega, ⟨e2.2.1, e2.2.2.1⟩, e2.1, e2.2.2.2⟩

/-- The theorem on errors applies: the request of the next connection
cannot be decoded. -/
example : ∃ u1 u2, UsbSessions exCalmApp exUsbCalm (fun _ => False) ([] ++ [u1]) u1.replug ∧
    u_run exUsbCalm (exBack [1, 2] [0x20, 0xE0, 0, 0, 0, 0, 0xEE] true) u1.replug = some u2 ∧
    u2.sys.client.calls.map result = [some (true, ⟨⟨.Key1 ⟨0xE0⟩, .Seq4 0⟩, [0xEE]⟩, 0)] :=
  exReplug (l1 := exPulled) (l2 := exBack [1, 2] [0x20, 0xE0, 0, 0, 0, 0, 0xEE] true) (g := fun u => u.sys.client.calls.map result)
    (by decide) (by decide +kernel) (by decide +kernel)

end PRpc.Props
