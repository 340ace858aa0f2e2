import Verif.Lemmas.Minimal
import Verif.Lemmas.UsbNext
import Verif.Props.Failed
/-! C105: what a server says to calls it has no handler for, and the minimal firmware. -/

namespace PRpc.Props

open Spec

variable {V E SC Ctx : Type}

/-- C105: a call for an endpoint without a handler never returns a reply, whatever else is called, published and lost on the way; and if it returns an
error, then the error is `UnknownKey`, given to its own request, which has left the context of the handlers as it was, unless the client has
published under the same number.  The same in sessions after others that ended with the device idle or by a disconnect, if each handler is that of a listed
endpoint, of its request and its response. -/
theorem c105_refused (a : App V E SC Ctx) (U : UsbCfg V E SC Ctx) (hU : UsbSound U) (hD : define_dispatch a = .ok U.S.disp)
    (hdecl : Declared a U.S.kkind) (dout : KeysApart a U.S) (hcfg : U.S.cfg.err_key = a.std.error)
    (hdist : ∀ r ∈ a.endpoint_list.endpoints, short (keyLen U.S.kkind) r.resp ≠ short (keyLen U.S.kkind) a.std.error)
    (hdist' : ∀ t ∈ a.topic_out_list.topics, short (keyLen U.S.kkind) t.key ≠ short (keyLen U.S.kkind) a.std.error)
    (hlong : keyLen U.S.disp.n ≤ keyLen U.S.kkind) {es : List (UsbSys V E SC Ctx)} {u0 : UsbSys V E SC Ctx} (h0 : UsbSessions a U DevIdle es u0)
    {ls : List (ULabel V)} {u : UsbSys V E SC Ctx} (hu : ∀ l ∈ ls, UsbUsed a l)
    (hrun : u_run U ls u0 = some u) (hsm : Small U.S u.sys) (hlen : u.sys.client.calls.length < 2 ^ 32)
    {c : Nat} {cl : Call} {req : Key} (hc : u.sys.client.calls[c]? = some cl) (hk : cl.rqst.header.key = .Key8 req)
    (hnot : req ∉ handledKeys U.S.disp) (hlist : es = [] ∨ ∀ h ∈ a.eps, ∃ r ∈ a.endpoint_list.endpoints, r.req = h.req ∧ r.resp = h.resp)
    {err : Bool} {f : RpcFrame} {i : Nat} (hres : result cl = some (err, f, i)) :
    err = true ∧ ∃ o ∈ u.sys.outs, ∃ j hdr body e, CarriesPart U.S.enc o f ∧ o.frame.body = .err e ∧ RefusedAt U.S.disp U.S.kkind u.sys j hdr body e ∧
      ((e = .UnknownKey ∧ RequestOf u.sys c cl j hdr ∧ body = cl.rqst.body ∧ (contexts u.sys)[j + 1]? = (contexts u.sys)[j]?) ∨
        ∃ (p : Nat) (pb : Pub), u.sys.client.pubs[p]? = some pb ∧ seqVal pb.orig.header.seq_no = seqVal cl.rqst.header.seq_no) := by
  obtain ⟨ls', hu', hr⟩ := next_run hU h0 hu hrun hsm
  have hs := (usb_sessions hU h0).2
  have inv := sys_run_inv hr hu' (sessions_start hs).inv
  have einv := sessions_errInv hs hr
  have hlen' : u.abs.client.calls.length < 2 ^ 32 := hlen
  cases err with
  | false => exact absurd hres (unhandled_session hD hdecl dout hdist hs hu' hr hlen' hc hk hnot (hlist.imp (by rintro rfl; rfl) id))
  | true =>
    obtain ⟨o, ho, j, hdr, body, e, g1, _, g3, g4, h⟩ := unhandled_error (s := u.abs) (dispatches hD) hdecl hcfg hdist hdist' hlong inv einv hlen' hc hk
      hnot hres
    refine ⟨rfl, o, ho, j, hdr, body, e, g1, g3, refused_abs g4, h.imp (fun h => ?_) id⟩
    obtain ⟨rfl, h1, h2⟩ := h
    refine ⟨rfl, request_abs h1, h2, ?_⟩
    obtain ⟨ctx, ctx', k1, k2, hw⟩ := (refused_abs g4).why
    cases hw
    rw [k1, k2]

/-- C105: if the device's sends succeed, nobody closes the client and the client publishes nothing, then wherever the whole comes to rest such a call has
returned `HostErr::Wire(WireError::UnknownKey)`, or its future was dropped. -/
theorem c105_answered (a : App V E SC Ctx) (U : UsbCfg V E SC Ctx) (hU : UsbSound U) (hD : define_dispatch a = .ok U.S.disp)
    (hdecl : Declared a U.S.kkind) (hF : Fits a U.S) (hdepth : 0 < U.S.cfg.outgoing_depth) (hlong : keyLen U.S.disp.n ≤ keyLen U.S.kkind)
    (henc : ∀ e, U.S.enc (.err e) = enc_wire_error e)
    {es : List (UsbSys V E SC Ctx)} {u0 : UsbSys V E SC Ctx} (h0 : UsbSessions a U DevIdle es u0)
    {ls : List (ULabel V)} {u : UsbSys V E SC Ctx} (hu : ∀ l ∈ ls, UsbUsed a l) (hl : ∀ l ∈ ls, UsbListens a l)
    (hrun : u_run U ls u0 = some u) (hlen : u.sys.client.calls.length < 2 ^ 32) (hopen : Open u.sys)
    {own : List (ULabel V)} {v : UsbSys V E SC Ctx} (ho : UsbOwnRun U u own v) (hsm : Small U.S v.sys) (hfit : RequestsFit U v.sys)
    (hpubs : v.sys.client.pubs = []) (hst : UsbStuck U v)
    {c : Nat} {cl : Call} {req : Key} (hc : v.sys.client.calls[c]? = some cl) (hk : cl.rqst.header.key = .Key8 req)
    (hnot : req ∉ handledKeys U.S.disp) : cl.phase = .dropped ∨ ∃ r, cl.phase = .done r ∧ ToldUnknown r := by
  have hg := u_run_grows (usb_own_run ho)
  have inv0 := usb_run_live hD hdecl hF hU (usb_sessions_live hU hF.sends h0) (small_before hsm hg.1) (fit_before hfit hg.2) hlen
    (fun l h => ⟨hu l h, hl l h⟩) hrun
  obtain ⟨i1, i2, i3⟩ := usb_own_inv hD hdecl hF hU ho inv0 hsm hfit hlen
  have hlen' : v.abs.client.calls.length < 2 ^ 32 := by
    show v.sys.client.calls.length < 2 ^ 32
    omega
  obtain ⟨ls', hu', hr⟩ := next_run hU h0 (fun l h => (List.mem_append.mp h).elim (hu l) (usb_owns_used ho l)) (u_run_append hrun (usb_own_run ho)) hsm
  have hs := (usb_sessions hU h0).2
  have inv := i1.sys
  have einv := sessions_errInv hs hr
  obtain ⟨h1, _⟩ := usb_stuck hU hF i1 (i2 hopen) hst
  rcases rest_answered i1.sys i1.live (stuck_atRest hdepth hF i1.sys i1.live (i2 hopen) h1) (c := c) hc with hd | ⟨err, f, i, hres⟩
  · exact .inl hd
  right
  cases err with
  | false => exact absurd hres (unhandled_session hD hdecl hF.apart hF.resp_err hs hu' hr hlen' hc hk hnot (.inr hF.handled))
  | true =>
    obtain ⟨o, hout, j, hdr, body, e, g1, _, g3, g4, ⟨rfl, _⟩ | ⟨p, pb, hp, _⟩⟩ := unhandled_error (s := v.abs) (dispatches hD) hdecl hF.err_key hF.resp_err
      hF.topic_err hlong inv einv hlen' hc hk hnot hres
    · have hphase : cl.phase = .done (.ErrResp f i) := by
        unfold result at hres
        split at hres <;> cases hres <;> assumption
      have hw := (g1.whole (i1.whole.outs o hout)).2
      rw [g3] at hw
      exact ⟨_, hphase, told_unknown henc hw⟩
    · have : v.sys.client.pubs[p]? = some pb := hp
      rw [hpubs] at this
      cases this

/-! ### A server with a gap -/

/-- The example application of C85 without incoming topics and without the handler of its first endpoint, which stays in the list. -/
def exGapApp : App Nat WireTxErrorKind Nat Nat :=
  { exPcApp with
    eps := exPcApp.eps.filter fun h => h.req ≠ exKey 3#8
    tps := []
    topic_in_list := ⟨.ToServer, [], []⟩ }

def exGapDisp : Dispatcher Nat WireTxErrorKind Nat Nat :=
  { exPcDisp with
    eps := exGapApp.eps
    tps := []
    device_map := ⟨[], exGapApp.endpoint_list.endpoints, [], exGapApp.topic_out_list.topics, .Key1⟩ }

theorem exGap_ok : define_dispatch exGapApp = .ok exGapDisp := by
  have h : needed_sz exGapApp.sizer = .ok 1 := by decide +kernel
  unfold define_dispatch
  rw [h]
  simp only [Exec.ok_bind, kind_of_sz, if_true, merge_types_eq]
  rfl

theorem exGap_declared : Declared exGapApp .Key1 where
  ping := by decide
  schemas := by decide
  schema_topic := by decide
  names := by decide
  sends := fun t ht => by cases ht

/-- Errors are written as postcard does, the rest does not matter here. -/
def exGapEnc : Body Nat → Bytes
  | .val v => [BitVec.ofNat 8 v]
  | .err e => enc_wire_error e
  | _ => [0xAA]

def exGap : UsbCfg Nat WireTxErrorKind Nat Nat := ⟨{ exPcSys with disp := exGapDisp, enc := exGapEnc }, 128, false, 1⟩

theorem exGap_fits : Fits exGapApp exGap.S where
  sends := fun _ _ => rfl
  err_key := rfl
  apart := apart_of_distinct (c10_dispatcher_key_length _ _ (define_dispatch_ok exGap_ok).1).2.2.1
  resp_err := by decide
  topic_err := by decide
  handled := by decide
  counters := .inr (by decide +kernel)

theorem exGap_small (s : Sys Nat WireTxErrorKind Nat Nat) : Small exGap.S s := by
  refine small_of_enc s fun o _ => ?_
  cases o.frame.body with
  | err e => exact Nat.le_trans (exWb2_size (.err e) (fun v e => by cases e)) (by decide)
  | _ => exact Nat.le_of_ble_eq_true rfl

/-- A call for the endpoint without a handler. -/
def exGapRun : List (ULabel Nat) :=
  usbCall 0 3#8 0x83#8 [7] ++
  [.client .out_poll, .client .out_recv, .host_packet, .dev_read, .client (.out_done true), .client .out_yield, .flush, .dev_write .ok] ++
  usbRecv [0x20, 0xE0, 0, 0, 0, 0, 4] (some ⟨0, true⟩) ++ [.client (.call_err 0)]

theorem exGapRun_used : ∀ l ∈ exGapRun, UsbUsed exGapApp l := by
  have hp : ∀ l ∈ exGapRun, (match l with | .client (.pub_begin _) => false | _ => true) = true := by decide
  intro l hl
  have : UsbUsed exSysApp l := by revert l; decide
  cases l with
  | client l => cases l <;> first | exact this | cases hp _ hl
  | _ => exact this

set_option synthInstance.maxSize 1000 in
/-- The device is then disconnected, connected again and asked the same. -/
theorem exGapRun_again : ((u_run exGap exGapRun (UsbSys.new 0)).bind fun u => (u_run exGap exGapRun u.replug).map fun v =>
    (u.sys.client.calls.length, v.sys.client.calls.map (fun cl => (cl.rqst.header.key, cl.resp_key, result cl)))) =
    some (1, [(.Key8 (exKey 3#8), exKey 0x83#8, some (true, ⟨⟨.Key1 ⟨0xE0⟩, .Seq4 0⟩, [4]⟩, 0))]) := by decide +kernel

/-- The theorem applies to both sessions: the call was told so. -/
example : UsbSound exGap ∧ exKey 3#8 ∉ handledKeys exGap.S.disp ∧ exKey 3#8 ∈ exGapApp.endpoint_list.endpoints.map (·.req) ∧
    UsbSessions exGapApp exGap DevIdle [] (UsbSys.new 0) ∧
    ∃ u v cl f, u_run exGap exGapRun (UsbSys.new 0) = some u ∧ UsbSessions exGapApp exGap DevIdle ([] ++ [u]) u.replug ∧
      u_run exGap exGapRun u.replug = some v ∧ v.sys.client.calls[0]? = some cl ∧ cl.rqst.header.key = .Key8 (exKey 3#8) ∧
      result cl = some (true, f, 0) ∧ ToldUnknown (.ErrResp f 0) ∧ (∃ o ∈ v.sys.outs, ∃ e, CarriesPart exGap.S.enc o f ∧ o.frame.body = .err e) := by
  have hU : UsbSound exGap := ⟨⟨2, rfl⟩, by decide, by decide⟩
  have hnot : exKey 3#8 ∉ handledKeys exGap.S.disp := by decide
  refine ⟨hU, hnot, by decide, .first 0, ?_⟩
  obtain ⟨u, h1, h2⟩ := Option.bind_eq_some_iff.mp exGapRun_again
  obtain ⟨v, h3, h2⟩ := Option.map_eq_some_iff.mp h2
  simp only [Prod.mk.injEq] at h2
  obtain ⟨h4, h2⟩ := h2
  obtain ⟨cl, hcl⟩ : ∃ cl, v.sys.client.calls = [cl] := by
    cases hcs : v.sys.client.calls with
    | nil => rw [hcs] at h2; cases h2
    | cons x xs =>
      cases xs with
      | nil => exact ⟨x, rfl⟩
      | cons y ys => rw [hcs] at h2; simp at h2
  rw [hcl] at h2
  simp only [List.map_cons, List.map_nil, List.cons.injEq, and_true, Prod.mk.injEq] at h2
  obtain ⟨k1, k2, k3⟩ := h2
  have hc : v.sys.client.calls[0]? = some cl := by rw [hcl]; rfl
  have hs : UsbSessions exGapApp exGap DevIdle ([] ++ [u]) u.replug :=
    .replug [] _ u exGapRun (.first 0) exGapRun_used h1 (exGap_small _) (by rw [h4]; decide)
  obtain ⟨_, o, ho, j, hdr, body, e, g1, g2, _⟩ := c105_refused exGapApp exGap hU exGap_ok exGap_declared exGap_fits.apart rfl exGap_fits.resp_err
    exGap_fits.topic_err (by decide) hs exGapRun_used h3 (exGap_small _) (by rw [hcl]; exact Nat.lt_of_sub_eq_succ rfl) hc k1 hnot
    (.inr exGap_fits.handled) k3
  exact ⟨u, v, cl, _, h1, hs, h3, hc, k1, k3, told_unknown (enc := exGapEnc) (fun _ => rfl) rfl, o, ho, e, g1, g2⟩

/-- The call has been made and nothing else has happened. -/
def exGapAsk : List (ULabel Nat) := [.client (.call_begin (exKey 3#8) (exKey 0x83#8) [7])]

/-- The other theorem applies: left to itself, the system comes to rest, and the call has been told so. -/
example : ∃ u own v cl, u_run exGap exGapAsk (UsbSys.new 0) = some u ∧ UsbOwnRun exGap u own v ∧ UsbStuck exGap v ∧
    v.sys.client.calls[0]? = some cl ∧ (cl.phase = .dropped ∨ ∃ r, cl.phase = .done r ∧ ToldUnknown r) := by
  have hU : UsbSound exGap := ⟨⟨2, rfl⟩, by decide, by decide⟩
  have hu : ∀ l ∈ exGapAsk, UsbUsed exGapApp l := by
    intro l hl
    cases List.mem_singleton.mp hl
    exact ⟨⟨[], exKey 3#8, exKey 0x83#8⟩, by decide, rfl, rfl⟩
  have hl : ∀ l ∈ exGapAsk, UsbListens exGapApp l := by
    intro l hl
    cases List.mem_singleton.mp hl
    trivial
  obtain ⟨u, e1⟩ : ∃ u, u_run exGap exGapAsk (UsbSys.new 0) = some u := ⟨_, rfl⟩
  have hlen : u.sys.client.calls.length = 1 := by cases e1; rfl
  have hsig : ∃ cl, u.sys.client.calls[0]? = some cl ∧ cl.rqst.header.key = .Key8 (exKey 3#8) ∧ cl.rqst.body = [7] := by
    cases e1; exact ⟨_, rfl, rfl, rfl⟩
  have hopen : Open u.sys := by cases e1; exact ⟨rfl, rfl⟩
  have htx : u.sys.client.tx = [] := by cases e1; rfl
  have hlt : u.sys.client.calls.length < 2 ^ 32 := by omega
  have hfit0 : RequestsFit exGap u.sys := fun b hb => by rw [htx] at hb; cases hb
  have hD : Dispatches exGapApp exGap.S.disp := dispatches exGap_ok
  have inv0 := usb_run_live hD exGap_declared exGap_fits hU (usbLive_new exGapApp exGap 0) (exGap_small _) hfit0 hlt (fun l h => ⟨hu l h, hl l h⟩) e1
  obtain ⟨own, v, ho, h⟩ := usb_to_stuck hD exGap_declared exGap_fits hU inv0 hlt
  obtain ⟨cl0, s1, s2, s3⟩ := hsig
  have k2 : RequestsFit exGap v.sys := own_fits hD exGap_declared exGap_fits hU exGap_small rfl (by decide) ho inv0 hlt (fun c cl hc => by
    match c, hc with
    | 0, hc => cases s1.symm.trans hc; rw [s3]; decide
    | c + 1, hc => have := getElem?_lt hc; omega)
  obtain ⟨i1, _, _⟩ := usb_own_inv hD exGap_declared exGap_fits hU ho inv0 (exGap_small _) k2 hlt
  have k1 : v.sys.client.pubs = [] := by
    cases hp : v.sys.client.pubs with
    | nil => rfl
    | cons x xs =>
      obtain ⟨t, ht, _⟩ := i1.sys.pubs 0 x (by show v.sys.client.pubs[0]? = _; rw [hp]; rfl)
      cases ht
  obtain ⟨_, lo, hro, _⟩ := sim_run hU.buffer hU.some_buffer inv0.usb (exGap_small _) (usb_own_run ho)
  obtain ⟨cl, k3, h2⟩ := (sys_run_later hro).calls 0 cl0 s1
  have k4 : cl.rqst.header.key = .Key8 (exKey 3#8) := by
    simp only [Call.sig, Prod.mk.injEq] at h2
    rw [h2.1]
    exact s2
  have hst := h.resolve_left fun h => h ⟨exGap_small _, k2⟩
  exact ⟨u, own, v, cl, e1, ho, hst, k3, c105_answered exGapApp exGap hU exGap_ok exGap_declared exGap_fits (by decide) (by decide) (fun _ => rfl) (.first 0)
    hu hl e1 hlt hopen ho (exGap_small _) k2 k1 hst k3 k4 (by decide)⟩

/-! ### The minimal firmware -/

/-- C105: with the minimal firmware, if the device's sends succeed and nobody closes the client, wherever host, cable and board come to rest every
method of `WorkbookClient` that was called has returned, or its future was dropped: `ping` the number it was given, the request for
schemas the totals, and every other method `UnknownKey`.  No task has been spawned.  The same for programs that use the board after others. -/
theorem c105_minimal (I : WbIcd) (U : UsbCfg WbVal E Unit Unit) (hU : UsbSound U) (hD : define_dispatch (min_app E I) = .ok U.S.disp)
    (hkk : U.S.kkind = U.S.disp.n) (ha : WbApart I (keyLen U.S.disp.n)) (henc : ∀ v, U.S.enc (.val v) = enc_wb v)
    (htot : ∀ t, U.S.enc (.totals t) = enc_totals t) (hwire : ∀ e, U.S.enc (.err e) = enc_wire_error e)
    (hsize : ∀ b, (∀ v, b ≠ .val v) → (U.S.enc b).length ≤ 1000) (hbuf : 128 ≤ U.rxlen) (hsend : ∀ log f, U.S.env.send log f = none)
    (herr : U.S.cfg.err_key = I.std.error) (hdepth : 0 < U.S.cfg.outgoing_depth)
    (hcount : U.S.env.overflow_checks = false ∨ (schemaMsgs U.S.disp.device_map).length ≤ 65535)
    {es : List (UsbSys WbVal E Unit Unit)} {u0 : UsbSys WbVal E Unit Unit} (h0 : WbHosts I U es u0)
    {ls : List (ULabel WbVal)} {u : UsbSys WbVal E Unit Unit} (hu : ∀ l ∈ ls, WbUses I l) (hl : ∀ l ∈ ls, WbListens I l)
    (hrun : u_run U ls u0 = some u) (hlen : u.sys.client.calls.length < 2 ^ 32) (hopen : Open u.sys)
    {own : List (ULabel WbVal)} {v : UsbSys WbVal E Unit Unit} (ho : UsbOwnRun U u own v) (hstuck : UsbStuck U v) :
    UsbAtRest v ∧ v.sys.tasks = [] ∧ ∀ (c : Nat) (cl : Call), v.sys.client.calls[c]? = some cl →
      (∃ m, IsCallOf I cl m) ∧ ∀ m, IsCallOf I cl m → cl.phase = .dropped ∨ ∃ r, cl.phase = .done r ∧ BareAnswer m r := by
  have hDi := min_dispatches hD ha
  have hdecl := min_declared E I U.S.kkind
  have hap : WbApart I (keyLen U.S.kkind) := by rw [hkk]; exact ha
  have hF : Fits (min_full E I) U.S := min_fits hsend herr hcount hap
  have hown := wb_own (I := I) ho
  have hrun' : u_run U (ls ++ own) u0 = some v := u_run_append hrun (usb_own_run ho)
  have hu' : ∀ l ∈ ls ++ own, WbUses I l := fun l h => (List.mem_append.mp h).elim (hu l) (fun h => (hown l h).1)
  have hsm := wb_small henc hsize v.sys
  obtain ⟨hs, hnone, hcalls⟩ := min_hosts hU hDi (wb_small henc hsize) h0
  obtain ⟨_, ls', hr, hst⟩ := sim_run hU.buffer hU.some_buffer (usb_sessions hU hs).1 hsm hrun'
  have inv := sys_run_inv hr (fun l' hl' => by
    obtain ⟨l, hl, h⟩ := hst l' hl'
    exact stands_used h (min_used (hu' l hl))) (sessions_start (usb_sessions hU hs).2).inv
  have einv := sessions_errInv (usb_sessions hU hs).2 hr
  have hold : v.abs.old = 0 := by
    rw [sys_run_old hr, (sessions_start (usb_sessions hU hs).2).old]
    show u0.sys.tasks.length = 0
    rw [hnone]
    rfl
  obtain ⟨hm, hfit⟩ := min_methods (s0 := u0.abs) hDi hbuf hcalls hr inv (fun l' hl' => by
    obtain ⟨l, hl, h⟩ := hst l' hl'
    exact ⟨l, h, hu' l hl⟩)
  have hg := u_run_grows (usb_own_run ho)
  have inv0 := usb_run_live hDi hdecl hF hU (usb_sessions_live hU hF.sends hs) (small_before hsm hg.1) (fit_before hfit hg.2) hlen
    (fun l h => ⟨min_used (hu l h), min_listens (hl l h)⟩) hrun
  obtain ⟨i1, i2, i3⟩ := usb_own_inv hDi hdecl hF hU ho inv0 hsm hfit hlen
  have hlen' : v.abs.client.calls.length < 2 ^ 32 := by
    show v.sys.client.calls.length < 2 ^ 32
    omega
  have heps : U.S.disp.eps = [] := hDi.eps
  have htps : U.S.disp.tps = [] := hDi.tps
  have hstd : U.S.disp.std = I.std := hDi.std
  refine ⟨usb_stuck_rest hU hF hdepth i1 (i2 hopen) hstuck, min_tasks (s := v.abs) hDi inv hold, fun c cl hc => ?_⟩
  constructor
  · obtain ⟨m, h1, h2, h3⟩ := hm c cl hc
    exact ⟨m, h1, h2, h3⟩
  intro m hmc
  obtain ⟨h1, _⟩ := usb_stuck hU hF i1 (i2 hopen) hstuck
  rcases rest_answered i1.sys i1.live (stuck_atRest hdepth hF i1.sys i1.live (i2 hopen) h1) (c := c) hc with hd | ⟨err, f, i, hres⟩
  · exact .inl hd
  right
  have hphase : cl.phase = .done (if err then .ErrResp f i else .Resp f i) := by
    unfold result at hres
    split at hres <;> cases hres <;> assumption
  refine ⟨_, hphase, ?_⟩
  have hlong : keyLen U.S.disp.n ≤ keyLen U.S.kkind := by rw [hkk]; exact Nat.le_refl _
  have hh : handledKeys U.S.disp = [I.std.ping_req, I.std.schemas_req] := by
    unfold handledKeys
    rw [heps, htps, hstd]
    rfl
  have other : ∀ e, m.ep = some e → m.req I ∉ handledKeys U.S.disp := by
    intro e he hin
    rw [hh, method_key I he] at hin
    obtain ⟨n1, n2⟩ := wb_not_std ha.requests e
    simp only [List.mem_cons, List.not_mem_nil, or_false] at hin
    rcases hin with hin | hin
    · exact n1 (by rw [hin])
    · exact n2 (by rw [hin])
  cases err with
  | false =>
    have hep : m.ep = none := by
      cases he : m.ep with
      | none => rfl
      | some e =>
        exact absurd hres (unhandled_reply (s := v.abs) hDi hdecl hF.apart hF.resp_err inv hold hlen' hc hmc.key (other e he))
    obtain ⟨o, hout, ⟨j, hdr, req, g1, g2, g3, g4⟩ | ⟨_, k, j, t, h2, _⟩⟩ := reply_begins (min_full E I) U.S hDi hdecl hF.apart hF.resp_err inv hlen'
      (s := v.abs) hc hres
    · have hw := (g1.whole (i1.whole.outs o hout)).2
      cases VarKey.Key8.inj (g3.symm.trans hmc.key)
      rw [hmc.body] at g4
      have hne : I.std.schemas_req ≠ I.std.ping_req := fun e => distinct_head (x := I.std.ping_req) ha.requests (List.mem_cons_self ..) (by rw [e])
      cases g4 with
      | called h g v ctx fr cut hf => have := hf.mem; rw [heps] at this; cases this
      | spawned h v w i' sc fr cut hf => have := hf.mem; rw [heps] at this; cases this
      | ping v fr cut _ _ e1 _ e3 e4 =>
        rw [hstd] at e1
        cases m <;> first | (cases hep; done) | skip
        · rename_i n
          rw [min_decode hD] at e3
          simp only [WbMethod.body, reads_from (reads_u32 n)] at e3
          cases e3
          rw [e4, henc] at hw
          show wb_result (.ping n) (.Resp f i) = .num n
          simp only [wb_result, finish_call, hw, enc_wb, reads_from (reads_u32 _), wb_question]
        · exact absurd e1.symm hne
      | schemas t fr cut _ _ e1 _ e3 =>
        rw [hstd] at e1
        cases m <;> first | (cases hep; done) | skip
        · exact absurd e1 hne
        · rw [e3, htot] at hw
          refine ⟨t, ?_⟩
          show wb_result .schemas (.Resp f i) = .report t
          simp only [wb_result, finish_call, hw, reads_from (reads_totals _), wb_question]
    · have := h2.earlier
      rw [hold] at this
      exact absurd this (Nat.not_lt_zero _)
  | true =>
    cases he : m.ep with
    | some e =>
      obtain ⟨o, hout, j, hdr, body, e', g1, _, g3, g4, ⟨rfl, _⟩ | ⟨p, pb, hp, _⟩⟩ := unhandled_error (s := v.abs) hDi hdecl hF.err_key hF.resp_err
        hF.topic_err hlong inv einv hlen' hc hmc.key (other e he) hres
      · have hw := (g1.whole (i1.whole.outs o hout)).2
        rw [g3] at hw
        have : ToldUnknown (.ErrResp f i) := told_unknown hwire hw
        cases m <;> first | (cases he; done) | exact this
      · obtain ⟨t, ht, _⟩ := inv.pubs p pb hp
        cases ht
    | none =>
      exfalso
      obtain ⟨o, hout, j, hdr, body, e', g1, g2, g3, g4, ⟨q, rfl, hk⟩ | ⟨p, pb, hp, _⟩⟩ := error_cause (min_full E I) U.S hDi hdecl hF.err_key hF.resp_err
        hF.topic_err inv einv hlen' (s := v.abs) hc hres
      · obtain ⟨b, b1, b2⟩ := g4.sent
        have hin : m.req I ∈ handledKeys U.S.disp := by
          rw [hh]
          cases m <;> first | (cases he; done) | simp [WbMethod.req]
        have hkind := hk hlong _ hmc.key hin
        obtain ⟨ctx, ctx', _, _, hw⟩ := g4.why
        cases hw with
        | key_too_small => simp at hkind
        | unknown => simp at hkind
        | ping_undecodable _ hrx hdec =>
          rw [hmc.body, min_decode hD] at hdec
          cases m <;> first | (cases he; done) | skip
          · rename_i n
            simp only [WbMethod.body, reads_from (reads_u32 n)] at hdec
            cases hdec
          · rcases taken_origin hDi hdecl inv ⟨b, b1, (isFrame_iff ..).mp b2⟩ with ⟨c', cl', r', k, hc', hr', ek', er', eh, eb, erx⟩ | ⟨p, pb, hp, t, ht', _⟩
            · have esq : hdr.seq_no = cl'.rqst.header.seq_no := by rw [eh]; rfl
              cases q.only c' cl' hc' (by rw [esq])
              cases hc'.symm.trans hc
              rw [erx (taken_long hDi hdecl hlong inv b1 b2), VarKey.Key8.inj (ek'.symm.trans hmc.key), hstd] at hrx
              exact absurd hrx (distinct_head (x := I.std.ping_req) ha.requests (List.mem_cons_self ..))
            · cases ht'
        | undecodable h hf => have := hf.mem; rw [heps] at this; cases this
        | unsent h g v fr x hf => have := hf.mem; rw [heps] at this; cases this
        | unspawned h v hf => have := hf.mem; rw [heps] at this; cases this
      · obtain ⟨t, ht, _⟩ := inv.pubs p pb hp
        cases ht

/-- C105: left to themselves, host, cable and board come to rest, whichever steps they take, whichever programs have used the board before. -/
theorem c105_comes_to_rest (I : WbIcd) (U : UsbCfg WbVal E Unit Unit) (hU : UsbSound U) (hD : define_dispatch (min_app E I) = .ok U.S.disp)
    (hkk : U.S.kkind = U.S.disp.n) (ha : WbApart I (keyLen U.S.disp.n)) (henc : ∀ v, U.S.enc (.val v) = enc_wb v)
    (hsize : ∀ b, (∀ v, b ≠ .val v) → (U.S.enc b).length ≤ 1000) (hbuf : 128 ≤ U.rxlen) (hsend : ∀ log f, U.S.env.send log f = none)
    (herr : U.S.cfg.err_key = I.std.error) (hcount : U.S.env.overflow_checks = false ∨ (schemaMsgs U.S.disp.device_map).length ≤ 65535)
    {es : List (UsbSys WbVal E Unit Unit)} {u0 : UsbSys WbVal E Unit Unit} (h0 : WbHosts I U es u0)
    {ls : List (ULabel WbVal)} {u : UsbSys WbVal E Unit Unit} (hu : ∀ l ∈ ls, WbUses I l) (hl : ∀ l ∈ ls, WbListens I l)
    (hrun : u_run U ls u0 = some u) (hlen : u.sys.client.calls.length < 2 ^ 32) :
    (∃ own v, UsbOwnRun U u own v ∧ UsbStuck U v) ∧
    ¬ ∃ (f : Nat → UsbSys WbVal E Unit Unit) (g : Nat → ULabel WbVal), f 0 = u ∧ ∀ n, UsbOwn (f n) (g n) ∧ u_step U (f n) (g n) = some (f (n + 1)) := by
  have hDi := min_dispatches hD ha
  have hdecl := min_declared E I U.S.kkind
  have hap : WbApart I (keyLen U.S.kkind) := by rw [hkk]; exact ha
  have hF : Fits (min_full E I) U.S := min_fits hsend herr hcount hap
  have hsm := wb_small (U := U) henc hsize
  obtain ⟨hs, hnone, hcalls⟩ := min_hosts hU hDi hsm h0
  have later : ∀ {own : List (ULabel WbVal)} {v : UsbSys WbVal E Unit Unit}, UsbOwnRun U u own v → RequestsFit U v.sys := by
    intro own v ho
    have hown := wb_own (I := I) ho
    have hu' : ∀ l ∈ ls ++ own, WbUses I l := fun l h => (List.mem_append.mp h).elim (hu l) (fun h => (hown l h).1)
    obtain ⟨_, ls', hr, hst⟩ := sim_run hU.buffer hU.some_buffer (usb_sessions hU hs).1 (hsm v.sys) (u_run_append hrun (usb_own_run ho))
    have inv := sys_run_inv hr (fun l' hl' => by
      obtain ⟨l, hl, h⟩ := hst l' hl'
      exact stands_used h (min_used (hu' l hl))) (sessions_start (usb_sessions hU hs).2).inv
    exact (min_methods (s0 := u0.abs) hDi hbuf hcalls hr inv (fun l' hl' => by
      obtain ⟨l, hl, h⟩ := hst l' hl'
      exact ⟨l, h, hu' l hl⟩)).2
  have inv0 := usb_run_live hDi hdecl hF hU (usb_sessions_live hU hF.sends hs) (hsm _) (later (.nil u)) hlen
    (fun l h => ⟨min_used (hu l h), min_listens (hl l h)⟩) hrun
  constructor
  · obtain ⟨own, v, ho, h⟩ := usb_to_stuck hDi hdecl hF hU inv0 hlen
    exact ⟨own, v, ho, h.resolve_left fun h => h ⟨hsm _, later ho⟩⟩
  · rintro ⟨f, g, e0, hf⟩
    have run : ∀ n, ∃ own, UsbOwnRun U u own (f n) := by
      intro n
      induction n with
      | zero => exact ⟨[], e0 ▸ .nil _⟩
      | succ n ih =>
        obtain ⟨own, h⟩ := ih
        exact ⟨_, usb_own_snoc h (hf n).1 (hf n).2⟩
    exact usb_own_finite hDi hdecl hF hU inv0 hlen ⟨f, g, e0, fun n => ⟨⟨hsm _, later (run n).choose_spec⟩, hf n⟩⟩

/-! ### A board -/

/-- The dispatcher of the firmware with the keys of `exIcd`. -/
def exMinDisp : Dispatcher WbVal WireTxErrorKind Unit Unit where
  std := exStd
  n := .Key1
  eps := []
  tps := []
  ping_decode := fun b => (from_bytes take_u32 b).map .u32
  spawn_ctxt := fun c => ((), c)
  device_map := ⟨[], exIcd.endpoint_list.endpoints, [], exIcd.topics_out_list.topics, .Key1⟩

theorem exMin_ok : define_dispatch (min_app WireTxErrorKind exIcd) = .ok exMinDisp := by
  have h : needed_sz (min_app WireTxErrorKind exIcd).sizer = .ok 1 := by decide +kernel
  unfold define_dispatch
  rw [h]
  simp only [Exec.ok_bind, kind_of_sz, if_true, merge_types_eq]
  rfl

def exMin : UsbCfg WbVal WireTxErrorKind Unit Unit :=
  ⟨⟨⟨.Seq4, exKey 0xE0#8, 8, false⟩, exMinDisp, .Key1, ⟨fun _ _ => none, fun _ _ => true, true⟩, id, exWbEnc2, fun _ _ => 0⟩, 1024, false, 1⟩

theorem exMin_sound : UsbSound exMin := ⟨⟨16, rfl⟩, by decide, by decide⟩

/-- Two methods have been called and nothing else has happened yet. -/
def exMinAsked : List (ULabel WbVal) :=
  [.client (.call_begin exStd.ping_req exStd.ping_resp [42]), .client (.call_begin (exKey 0x12) (exKey 0xB2) [])]

/-- The theorems apply: the ping returns its number, `get_id` is told that the firmware does not know it. -/
example : ∃ u own v c0 c1, u_run exMin exMinAsked (UsbSys.new ()) = some u ∧ UsbOwnRun exMin u own v ∧ UsbStuck exMin v ∧
    v.sys.client.calls[0]? = some c0 ∧ (c0.phase = .dropped ∨ ∃ r, c0.phase = .done r ∧ wb_result (.ping 42) r = .num 42) ∧
    v.sys.client.calls[1]? = some c1 ∧ (c1.phase = .dropped ∨ ∃ r, c1.phase = .done r ∧ ToldUnknown r) := by
  have hu : ∀ l ∈ exMinAsked, WbUses exIcd l ∧ WbListens exIcd l := by
    intro l hl
    simp only [exMinAsked, List.mem_cons, List.not_mem_nil, or_false] at hl
    rcases hl with rfl | rfl
    · exact ⟨⟨.ping 42, rfl, rfl, by decide⟩, trivial⟩
    · exact ⟨⟨.get_id, rfl, rfl, rfl⟩, trivial⟩
  obtain ⟨u, e1⟩ : ∃ u, u_run exMin exMinAsked (UsbSys.new ()) = some u := ⟨_, rfl⟩
  have hlen : u.sys.client.calls.length = 2 := by cases e1; rfl
  have hopen : Open u.sys := by cases e1; exact ⟨rfl, rfl⟩
  have hlt : u.sys.client.calls.length < 2 ^ 32 := by omega
  have h0 : ∃ cl, u.sys.client.calls[0]? = some cl ∧ IsCallOf exIcd cl (.ping 42) := by cases e1; exact ⟨_, rfl, rfl, rfl, by decide⟩
  have h1 : ∃ cl, u.sys.client.calls[1]? = some cl ∧ IsCallOf exIcd cl .get_id := by cases e1; exact ⟨_, rfl, rfl, rfl, rfl⟩
  obtain ⟨⟨own, v, ho, hst⟩, _⟩ := c105_comes_to_rest exIcd exMin exMin_sound exMin_ok rfl exWb_apart (fun _ => rfl) exWb2_size (by decide) (fun _ _ => rfl)
    rfl (.inr (by decide)) (.first ()) (fun l h => (hu l h).1) (fun l h => (hu l h).2) e1 hlt
  obtain ⟨_, _, hall⟩ := c105_minimal exIcd exMin exMin_sound exMin_ok rfl exWb_apart (fun _ => rfl) (fun _ => rfl) (fun _ => rfl) exWb2_size (by decide)
    (fun _ _ => rfl) rfl (by decide) (.inr (by decide)) (.first ()) (fun l h => (hu l h).1) (fun l h => (hu l h).2) e1 hlt hopen ho hst
  obtain ⟨ui, _⟩ := sim_run exMin_sound.buffer exMin_sound.some_buffer (usbInv_new exMin.S ()) (wb_small (fun _ => rfl) exWb2_size _) e1
  obtain ⟨_, lo, hro, _⟩ := sim_run exMin_sound.buffer exMin_sound.some_buffer ui (wb_small (fun _ => rfl) exWb2_size _) (usb_own_run ho)
  have carry : ∀ (c : Nat) (m : WbMethod), (∃ cl, u.sys.client.calls[c]? = some cl ∧ IsCallOf exIcd cl m) →
      ∃ cl, v.sys.client.calls[c]? = some cl ∧ IsCallOf exIcd cl m := by
    rintro c m ⟨cl, k1, k2⟩
    obtain ⟨cl', g1, g2⟩ := (sys_run_later hro).calls c cl k1
    simp only [Call.sig, Prod.mk.injEq] at g2
    exact ⟨cl', g1, by rw [g2.1]; exact k2.key, by rw [g2.2.1]; exact k2.resp, by rw [g2.1]; exact k2.body⟩
  obtain ⟨c0, k1, k2⟩ := carry 0 _ h0
  obtain ⟨c1, k3, k4⟩ := carry 1 _ h1
  exact ⟨u, own, v, c0, c1, e1, ho, hst, k1, (hall 0 c0 k1).2 _ k2, k3, (hall 1 c1 k3).2 _ k4⟩

/-- `get_id` asked of this board, step by step. -/
def exMinRun : List (ULabel WbVal) :=
  [.client (.call_begin (exKey 0x12) (exKey 0xB2) []), .client (.call_kind 0), .client (.call_reg_ok 0), .client (.call_reg_err 0),
    .client (.call_send 0), .client .out_poll, .client .out_recv, .host_packet, .dev_read, .client (.out_done true), .client .out_yield,
    .flush, .dev_write .ok, .client .in_poll, .client (.in_recv (some [0x20, 0xE0, 0, 0, 0, 0, 4])), .client .in_lookup,
    .client (.in_wake (some ⟨0, true⟩)), .client .in_yield, .client (.call_err 0)]

set_option synthInstance.maxSize 1000 in
/-- And again after the board was disconnected, by the next program. -/
example : ∃ u1 u2, WbHosts exIcd exMin ([] ++ [u1]) u1.replug ∧ (∀ l ∈ exMinRun, WbUses exIcd l ∧ WbListens exIcd l) ∧
    u_run exMin exMinRun u1.replug = some u2 ∧ Open u2.sys ∧
    u2.sys.client.calls.map (·.phase) = [.done (.ErrResp ⟨⟨.Key1 ⟨0xE0⟩, .Seq4 0⟩, [4]⟩ 0)] := by
  have hu : ∀ l ∈ exMinRun, WbUses exIcd l ∧ WbListens exIcd l := by
    intro l hl
    simp only [exMinRun, List.mem_cons, List.not_mem_nil, or_false] at hl
    rcases hl with rfl | hl
    · exact ⟨⟨.get_id, rfl, rfl, rfl⟩, trivial⟩
    · repeat' (rcases hl with rfl | hl; exact ⟨trivial, trivial⟩)
  have h : ((u_run exMin exMinRun (UsbSys.new ())).bind fun u => (u_run exMin exMinRun u.replug).map fun v =>
      (u.sys.client.calls.length, v.sys.client.calls.map (·.phase), v.sys.client.stopped, v.sys.client.handles)) =
      some (1, [.done (.ErrResp ⟨⟨.Key1 ⟨0xE0⟩, .Seq4 0⟩, [4]⟩ 0)], false, true) := by decide +kernel
  obtain ⟨u1, e1, h⟩ := Option.bind_eq_some_iff.mp h
  obtain ⟨u2, e2, h⟩ := Option.map_eq_some_iff.mp h
  simp only [Prod.mk.injEq] at h
  exact ⟨u1, u2, .replug _ _ u1 exMinRun (.first ()) (fun l h => (hu l h).1) e1 (by rw [h.1]; decide), hu, e2, ⟨h.2.2.1, h.2.2.2⟩, h.2.1⟩

end PRpc.Props
