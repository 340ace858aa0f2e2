import Verif.Lemmas.UsbConf
import Verif.Props.Lossy
/-! A client and a server over a USB cable, packet by packet: C84. -/

namespace PRpc.Props

open Spec

variable {V E SC Ctx : Type}

/-- C84: splitting messages into packets adds nothing to what client and server do: as long as everything the server has sent is
shorter than 1024 bytes, each of their runs over the cable is one over links that carry whole messages, in which the client
receives what is in the completed transfers that are not empty. -/
theorem c84_refines (a : App V E SC Ctx) (U : UsbCfg V E SC Ctx) (hU : UsbSound U) {ls : List (ULabel V)} {c0 : Ctx}
    {u : UsbSys V E SC Ctx} (hu : ∀ l ∈ ls, UsbUsed a l) (hrun : u_run U ls (UsbSys.new c0) = some u) (hsm : Small U.S u.sys) :
    ∃ ls' s, sys_run U.S ls' (Sys.new c0) = some s ∧ (∀ l ∈ ls', Used a l) ∧ SameButAir s u.sys ∧
      ∃ rest, s.air = (u.sys.air.filter fun b => !b.isEmpty) ++ rest := by
  obtain ⟨_, ls', hr, hst⟩ := sim_run hU.buffer hU.some_buffer (usbInv_new U.S c0) hsm hrun
  refine ⟨ls', u.abs, hr, fun l' hl' => ?_, rfl, u.rest, rfl⟩
  obtain ⟨l, hl, h⟩ := hst l' hl'
  exact stands_used h (hu l hl)

/-- What is stated of a request and its reply does not depend on what is on its way. -/
theorem request_abs {u : UsbSys V E SC Ctx} {c : Nat} {cl : Call} {j : Nat} {hdr : VarHeader} (h : RequestOf u.abs c cl j hdr) :
    RequestOf u.sys c cl j hdr := ⟨h.call, h.sent, h.key, h.seq, h.only⟩

theorem reply_abs {D : Dispatcher V E SC Ctx} {u : UsbSys V E SC Ctx} {j : Nat} {hdr : VarHeader} {body : Bytes} {req resp : Key}
    {o : Out V} (h : ReplyTo D u.abs j hdr body req resp o) : ReplyTo D u.sys j hdr body req resp o := by
  cases h with
  | called h g v ctx fr cut h1 h2 h3 h4 h5 h6 h7 => exact .called h g v ctx fr cut h1 h2 h3 h4 h5 h6 h7
  | spawned h v w i sc fr cut h1 h2 h3 h4 h5 h6 h7 h8 => exact .spawned h v w i sc fr cut h1 h2 h3 h4 h5 h6 h7 h8
  | ping v fr cut h1 h2 h3 h4 h5 h6 => exact .ping v fr cut h1 h2 h3 h4 h5 h6
  | schemas t fr cut h1 h2 h3 h4 h5 => exact .schemas t fr cut h1 h2 h3 h4 h5

/-- C84: a typed call over the cable that returned `Ok(v)` returned what the response decoder makes of the whole reply the handler
of its endpoint gave to its own request, even if sends of the server fail at any packet, if the decoder rejects what is cut from
that reply. -/
theorem c84_typed_reply (a : App V E SC Ctx) (U : UsbCfg V E SC Ctx) (hU : UsbSound U) (hD : define_dispatch a = .ok U.S.disp)
    (hdecl : Declared a U.S.kkind) (hapart : KeysApart a U.S)
    (hdist : ∀ r ∈ a.endpoint_list.endpoints, short (keyLen U.S.kkind) r.resp ≠ short (keyLen U.S.kkind) a.std.error)
    {ls : List (ULabel V)} {c0 : Ctx} {u : UsbSys V E SC Ctx} (hu : ∀ l ∈ ls, UsbUsed a l)
    (hrun : u_run U ls (UsbSys.new c0) = some u) (hsm : Small U.S u.sys)
    (hlen : u.sys.client.calls.length < 2 ^ 32) {R W : Type} (decode : Bytes → Option R) (decode_err : Bytes → Option W)
    {c : Nat} {cl : Call} {f : RpcFrame} {i : Nat}
    (hc : u.sys.client.calls[c]? = some cl) (hres : cl.phase = .done (.Resp f i)) :
    ∃ o ∈ u.sys.outs, ∃ j hdr req, RequestOf u.sys c cl j hdr ∧ cl.rqst.header.key = .Key8 req ∧
      ReplyTo U.S.disp u.sys j hdr cl.rqst.body req cl.resp_key o ∧ CarriesPart U.S.enc o f ∧
      (RejectsCut decode (U.S.enc o.frame.body) →
        (∀ v, finish_call decode decode_err (.Resp f i) = .Ok v → Carries U.S.enc o f ∧ decode (U.S.enc o.frame.body) = some v) ∧
        (¬ Carries U.S.enc o f → finish_call decode decode_err (.Resp f i) = .Postcard)) := by
  obtain ⟨_, ls', hr, hst⟩ := sim_run hU.buffer hU.some_buffer (usbInv_new U.S c0) hsm hrun
  obtain ⟨o, ho, j, hdr, req, h1, h2, h3, h4⟩ := c74_typed_reply a U.S hD hdecl hapart hdist (s := u.abs) (fun l' hl' => by
    obtain ⟨l, hl, h⟩ := hst l' hl'
    exact stands_used h (hu l hl)) hr hlen decode decode_err hc hres
  exact ⟨o, ho, j, hdr, req, request_abs h1, h2, reply_abs h3, h4⟩

/-- C84 for errors. -/
theorem c84_typed_error (a : App V E SC Ctx) (U : UsbCfg V E SC Ctx) (hU : UsbSound U) (hD : define_dispatch a = .ok U.S.disp)
    (hdecl : Declared a U.S.kkind) (hcfg : U.S.cfg.err_key = a.std.error)
    (hdist : ∀ r ∈ a.endpoint_list.endpoints, short (keyLen U.S.kkind) r.resp ≠ short (keyLen U.S.kkind) a.std.error)
    (hdist' : ∀ t ∈ a.topic_out_list.topics, short (keyLen U.S.kkind) t.key ≠ short (keyLen U.S.kkind) a.std.error)
    {ls : List (ULabel V)} {c0 : Ctx} {u : UsbSys V E SC Ctx} (hu : ∀ l ∈ ls, UsbUsed a l)
    (hrun : u_run U ls (UsbSys.new c0) = some u) (hsm : Small U.S u.sys)
    (hlen : u.sys.client.calls.length < 2 ^ 32) {R W : Type} (decode : Bytes → Option R) (decode_err : Bytes → Option W)
    {c : Nat} {cl : Call} {f : RpcFrame} {i : Nat}
    (hc : u.sys.client.calls[c]? = some cl) (hres : cl.phase = .done (.ErrResp f i)) :
    ∃ o ∈ u.sys.outs, ∃ j e, o.src = .req j ∧ o.frame.body = .err e ∧ CarriesPart U.S.enc o f ∧
      (RejectsCut decode_err (U.S.enc (.err e)) →
        (∀ w, finish_call decode decode_err (.ErrResp f i) = .Wire w → decode_err (U.S.enc (.err e)) = some w) ∧
        (¬ Carries U.S.enc o f → finish_call decode decode_err (.ErrResp f i) = .Postcard)) := by
  obtain ⟨_, ls', hr, hst⟩ := sim_run hU.buffer hU.some_buffer (usbInv_new U.S c0) hsm hrun
  exact c74_typed_error a U.S hD hdecl hcfg hdist hdist' (s := u.abs) (.first c0) (fun l' hl' => by
    obtain ⟨l, hl, h⟩ := hst l' hl'
    exact stands_used h (hu l hl)) hr hlen decode decode_err hc hres

/-- C84: an open system over the cable that can do nothing more by itself is at rest, with nothing left on the cable, and every
call was given up by its caller or has returned a reply or an error frame. -/
theorem c84_no_deadlock (a : App V E SC Ctx) (U : UsbCfg V E SC Ctx) (hU : UsbSound U) (hD : define_dispatch a = .ok U.S.disp)
    (hdecl : Declared a U.S.kkind) (hF : Fits a U.S) (hdepth : 0 < U.S.cfg.outgoing_depth)
    {ls : List (ULabel V)} {c0 : Ctx} {u : UsbSys V E SC Ctx} (hu : ∀ l ∈ ls, UsbUsed a l) (hl : ∀ l ∈ ls, UsbListens a l)
    (hrun : u_run U ls (UsbSys.new c0) = some u) (hlen : u.sys.client.calls.length < 2 ^ 32) (hopen : Open u.sys)
    {own : List (ULabel V)} {v : UsbSys V E SC Ctx} (ho : UsbOwnRun U u own v) (hsm : Small U.S v.sys) (hfit : RequestsFit U v.sys)
    (hst : UsbStuck U v) :
    UsbAtRest v ∧ v.sys.client.calls.length = u.sys.client.calls.length ∧
      ∀ cl ∈ v.sys.client.calls, cl.phase = .dropped ∨ ∃ err f i, result cl = some (err, f, i) := by
  have hg := u_run_grows (usb_own_run ho)
  have inv := usb_run_live hD hdecl hF hU (usbLive_new a U c0) (small_before hsm hg.1) (fit_before hfit hg.2) hlen
    (fun l h => ⟨hu l h, hl l h⟩) hrun
  obtain ⟨i1, i2, i3⟩ := usb_own_inv hD hdecl hF hU ho inv hsm hfit hlen
  have hrest := usb_stuck_rest hU hF hdepth i1 (i2 hopen) hst
  refine ⟨hrest, i3, fun cl hcl => ?_⟩
  obtain ⟨c, hc⟩ := List.mem_iff_getElem?.mp hcl
  obtain ⟨h1, _⟩ := usb_stuck hU hF i1 (i2 hopen) hst
  exact rest_answered i1.sys i1.live (stuck_atRest hdepth hF i1.sys i1.live (i2 hopen) h1) (c := c) hc

/-- C84: left to itself the system over the cable comes to an end after finitely many steps, whichever it takes. -/
theorem c84_finite (a : App V E SC Ctx) (U : UsbCfg V E SC Ctx) (hU : UsbSound U) (hD : define_dispatch a = .ok U.S.disp)
    (hdecl : Declared a U.S.kkind) (hF : Fits a U.S)
    {ls : List (ULabel V)} {c0 : Ctx} {u : UsbSys V E SC Ctx} (hu : ∀ l ∈ ls, UsbUsed a l) (hl : ∀ l ∈ ls, UsbListens a l)
    (hrun : u_run U ls (UsbSys.new c0) = some u) (hlen : u.sys.client.calls.length < 2 ^ 32) :
    ¬ ∃ (f : Nat → UsbSys V E SC Ctx) (g : Nat → ULabel V), f 0 = u ∧
      ∀ n, (Small U.S (f n).sys ∧ RequestsFit U (f n).sys) ∧ UsbOwn (f n) (g n) ∧ u_step U (f n) (g n) = some (f (n + 1)) := by
  rintro ⟨f, g, h0, hf⟩
  have inv := usb_run_live hD hdecl hF hU (usbLive_new a U c0) (h0 ▸ (hf 0).1.1) (h0 ▸ (hf 0).1.2) hlen
    (fun l h => ⟨hu l h, hl l h⟩) hrun
  exact usb_own_finite hD hdecl hF hU inv hlen ⟨f, g, h0, hf⟩

/-- C84: from every state the system left to itself can come to rest with all calls answered, unless it comes to a message that
is too long for the host's transfers or the server's buffer. -/
theorem c84_every_call_answered (a : App V E SC Ctx) (U : UsbCfg V E SC Ctx) (hU : UsbSound U) (hD : define_dispatch a = .ok U.S.disp)
    (hdecl : Declared a U.S.kkind) (hF : Fits a U.S) (hdepth : 0 < U.S.cfg.outgoing_depth)
    {ls : List (ULabel V)} {c0 : Ctx} {u : UsbSys V E SC Ctx} (hu : ∀ l ∈ ls, UsbUsed a l) (hl : ∀ l ∈ ls, UsbListens a l)
    (hrun : u_run U ls (UsbSys.new c0) = some u) (hlen : u.sys.client.calls.length < 2 ^ 32) (hopen : Open u.sys) :
    ∃ more v, UsbOwnRun U u more v ∧ (¬ (Small U.S v.sys ∧ RequestsFit U v.sys) ∨
      (UsbAtRest v ∧ v.sys.client.calls.length = u.sys.client.calls.length ∧
        ∀ cl ∈ v.sys.client.calls, cl.phase = .dropped ∨ ∃ err f i, result cl = some (err, f, i))) := by
  by_cases h0 : Small U.S u.sys ∧ RequestsFit U u.sys
  · have inv := usb_run_live hD hdecl hF hU (usbLive_new a U c0) h0.1 h0.2 hlen (fun l h => ⟨hu l h, hl l h⟩) hrun
    obtain ⟨more, v, hr, h⟩ := usb_to_stuck hD hdecl hF hU inv hlen
    refine ⟨more, v, hr, ?_⟩
    by_cases hv : Small U.S v.sys ∧ RequestsFit U v.sys
    · rcases h with h | h
      · exact absurd hv h
      · exact .inr (c84_no_deadlock a U hU hD hdecl hF hdepth hu hl hrun hlen hopen hr hv.1 hv.2 h)
    · exact .inl hv
  · exact ⟨[], u, .nil u, .inl h0⟩

/-! ### The system's steps and the transports' functions -/

/-- C84: the packets `NusbWireTx::send` puts on the bus for a frame, with packets of 64 bytes, are those the system has. -/
theorem c84_host_packets {t t' : NusbTx} {d : Bytes} {cs cs' : List Completion} {r : NusbSent} (hd : d ≠ [])
    (hm : t.max_packet_size = some 64) (h : send_inner t d cs = .ok (r, t', cs')) :
    ∃ transfers, t'.submitted = t.submitted ++ transfers ∧ transfers.flatMap (bulk 64) = host_packets d := by
  refine ⟨_, send_inner_submits hm h, ?_⟩
  have hb : bulk 64 [] = [[]] := by rw [bulk]; simp
  unfold host_packets
  split <;> simp [bulk_chunks _ d (Nat.le_refl _) hd, hb]

example : (List.replicate 64 1#8 ≠ []) ∧ ∃ r, send_inner ⟨some 64, [], 0⟩ (List.replicate 64 1#8) [⟨none, []⟩, ⟨none, []⟩] = .ok r :=
  ⟨by decide, _, rfl⟩

/-- C84: from the start of a send of the device to its end, its writes, with whatever outcomes, put the packets on the bus that
`EUsbWireTx::send` puts there, and leave `pending_frame` as it does. -/
theorem c84_device_writes {U : UsbCfg V E SC Ctx} {u0 u u' : UsbSys V E SC Ctx} {l : ULabel V}
    (hl : l = .flush ∨ (∃ i v, l = .task_reply i v) ∨ ∃ k q v, l = .app_publish k q v) (h0 : u_step U u0 l = some u)
    {os : List WriteOut} (h : u_run U (os.map .dev_write) u = some u') (hn : u'.sending = none)
    (o : Nat → WriteOut) (ho : ∀ k x, os[k]? = some x → o k = x) (before : List Bytes) :
    ∃ f ∈ u.sys.outs, ∃ b, IsFrame b f.frame.hdr (U.S.enc f.frame.body) ∧
    ∃ packets, (send_all o b ⟨u0.pending_frame, before⟩).2 = ⟨u'.pending_frame, before ++ packets⟩ ∧
      ((send_all o b ⟨u0.pending_frame, before⟩).1 = .Ok ↔ u'.pending_frame = false) ∧
      ∃ at_host, at_host = packets.foldl host_get u ∧ at_host.sys = u'.sys ∧ at_host.cur = u'.cur := by
  have main : ∀ {s : Sys V E SC Ctx} {x : Out V}, u_begin U u0 s x = some u → ∃ f ∈ u.sys.outs, ∃ b,
      IsFrame b f.frame.hdr (U.S.enc f.frame.body) ∧
      ∃ packets, (send_all o b ⟨u0.pending_frame, before⟩).2 = ⟨u'.pending_frame, before ++ packets⟩ ∧
      ((send_all o b ⟨u0.pending_frame, before⟩).1 = .Ok ↔ u'.pending_frame = false) ∧
      ∃ at_host, at_host = packets.foldl host_get u ∧ at_host.sys = u'.sys ∧ at_host.cur = u'.cur := by
    intro s x hb
    obtain ⟨_, b, hfb, hu⟩ := u_begin_cases hb
    have hpf : u.pending_frame = u0.pending_frame := by rw [hu]
    obtain ⟨given, g1, g2, g3⟩ := writes_send_all (U := U) (u := u) (pk := before) (w := ⟨x, b, u0.pending_frame, 0, dev_packets b⟩) o ho
      (by rw [hu]) hpf.symm (bytes_ne hfb) rfl h hn
    rw [hpf] at g1 g2
    refine ⟨x, by rw [hu]; exact List.mem_append_right _ (List.mem_singleton.mpr rfl), b, ?_, given, g1, g2, _, rfl, ?_⟩
    · rw [frame_bytes_eq] at hfb
      cases hfb
      simp only [IsFrame, List.map_append, encOf_layout]
    · have : ∀ (ps : List Bytes) (v : UsbSys V E SC Ctx), ((ps.foldl host_get v).sys, (ps.foldl host_get v).cur) = ps.foldl hget (v.sys, v.cur) := by
        intro ps
        induction ps with
        | nil => intro v; rfl
        | cons p ps ih => intro v; simp only [List.foldl_cons]; rw [ih, host_get_eq]
      have e := (this given u).trans g3.symm
      exact ⟨congrArg Prod.fst e, congrArg Prod.snd e⟩
  rcases hl with rfl | ⟨i, v, rfl⟩ | ⟨k, q, v, rfl⟩
  · simp only [u_step] at h0
    split at h0
    · cases h0
    · exact main h0
  · simp only [u_step, u_task_reply, u_send] at h0
    repeat' split at h0
    all_goals first
      | (cases h0; done)
      | exact main h0
  · simp only [u_step, u_publish, u_send] at h0
    split at h0 <;> exact main h0

/-- C84: what the server's receiver makes of the packets it reads one by one is what `EUsbWireRx::receive` makes of them. -/
theorem c84_device_reads (lost : Bool) (buflen : Nat) (got p : Bytes) (q : List UsbIn) :
    rx_loop lost buflen got (.packet p :: q) = match rx_step lost buflen (.filling got) p with
      | .more (.filling g) => rx_loop lost buflen g q
      | .more .draining => rx_drain lost buflen q
      | .done (some m) _ => (.Ok m, q)
      | .done none kept => (.ReceivedMessageTooLarge, if kept then .packet p :: q else q) := rx_loop_step lost buflen got p q

/-- C84: likewise while a message that is too long is skipped. -/
theorem c84_device_drains (lost : Bool) (buflen : Nat) (p : Bytes) (q : List UsbIn) :
    rx_drain lost buflen (.packet p :: q) = match rx_step lost buflen .draining p with
      | .more (.filling g) => rx_loop lost buflen g q
      | .more .draining => rx_drain lost buflen q
      | .done (some m) _ => (.Ok m, q)
      | .done none kept => (.ReceivedMessageTooLarge, if kept then .packet p :: q else q) := rx_drain_step lost buflen p q

/-! ### Concrete systems -/

/-- A serializer whose values take 70 bytes. -/
def exLongEnc : Body Nat → Bytes
  | .val v => List.replicate 70 (BitVec.ofNat 8 v)
  | .err _ => [0xEE]
  | _ => [0xAA]

/-- The example application on a device with a receive buffer of two packets and an endpoint that holds one. -/
def exUsb : UsbCfg Nat WireTxErrorKind Nat Nat := ⟨{ exSys with enc := exLongEnc }, 128, false, 1⟩

def usbCall (c : Nat) (req resp : Byte) (body : Bytes) : List (ULabel Nat) :=
  [.client (.call_begin (exKey req) (exKey resp) body), .client (.call_kind c), .client (.call_reg_ok c),
    .client (.call_reg_err c), .client (.call_send c)]

/-- A transfer arrives at the waiter `w`. -/
def usbRecv (b : Bytes) (w : Option WaitId) : List (ULabel Nat) :=
  [.client .in_poll, .client (.in_recv (some b)), .client .in_lookup, .client (.in_wake w), .client .in_yield]

/-- Two calls.  The first request takes two packets and cannot be decoded, the second takes one; the second reply takes two. -/
def exUsbRun : List (ULabel Nat) :=
  usbCall 0 3#8 0x83#8 (List.replicate 51 1) ++ usbCall 1 3#8 0x83#8 [7] ++
  [.client .out_poll, .client .out_recv, .host_packet, .dev_read, .host_packet, .client (.out_done true), .client .out_recv, .dev_read,
    .host_packet, .flush, .dev_write .ok, .dev_read, .flush, .dev_write .ok, .client (.out_done true), .client .out_yield, .dev_write .ok] ++
  usbRecv [0x20, 0xE0, 0, 0, 0, 0, 0xEE] (some ⟨0, true⟩) ++ usbRecv ([0x20, 0x83, 1, 0, 0, 0] ++ List.replicate 70 7) (some ⟨1, false⟩) ++
  [.client (.call_err 0), .client (.call_ok 1)]

set_option synthInstance.maxSize 1000 in
theorem exUsbRun_result : (u_run exUsb exUsbRun (UsbSys.new 0)).map (fun u =>
      (u.sys.client.calls.map result, u.sys.outs.map Out.src, u.bus_out, u.ep_out, u.sending.isNone)) =
    some ([some (true, ⟨⟨.Key1 ⟨0xE0⟩, .Seq4 0⟩, [0xEE]⟩, 0), some (false, ⟨⟨.Key1 ⟨0x83⟩, .Seq4 1⟩, List.replicate 70 7⟩, 1)],
      [.req 0, .req 1], [], [], true) := by decide +kernel

theorem exUsb_sound : UsbSound exUsb := ⟨⟨2, rfl⟩, by decide, by decide⟩

theorem small_of_enc {S : SysCfg V E SC Ctx} (s : Sys V E SC Ctx) (h : ∀ o ∈ s.outs, (S.enc o.frame.body).length ≤ 1010) : Small S s := by
  intro o ho b hb
  have := congrArg List.length hb
  rw [← encOf_layout] at this
  simp only [List.length_map, List.length_append] at this
  have h1 := h o ho
  have h2 : (encOf o.frame.hdr).length ≤ 13 := by
    cases e : o.frame.hdr with
    | mk k s => cases k <;> cases s <;> simp [encOf, keyBytes, seqBytesOf_length, seqWidth]
  omega

theorem exUsb_small (s : Sys Nat WireTxErrorKind Nat Nat) : Small exUsb.S s := by
  refine small_of_enc s fun o _ => ?_
  cases o.frame.body <;> simp [exUsb, exLongEnc]

instance decUsbUsed (l : ULabel Nat) : Decidable (UsbUsed exSysApp l) := by
  cases l <;> (unfold UsbUsed; infer_instance)

instance decUsbListens (l : ULabel Nat) : Decidable (UsbListens exSysApp l) := by
  cases l <;> (unfold UsbListens; infer_instance)

theorem exUsb_fits : Fits exSysApp exUsb.S :=
  ⟨exSys_fits.sends, exSys_fits.err_key, exSys_fits.apart, exSys_fits.resp_err, exSys_fits.topic_err, exSys_fits.handled, exSys_fits.counters⟩

set_option synthInstance.maxSize 1000 in
/-- The theorems apply to it. -/
example : UsbSound exUsb ∧ define_dispatch exSysApp = .ok exUsb.S.disp ∧ Declared exSysApp exUsb.S.kkind ∧ Fits exSysApp exUsb.S ∧
    0 < exUsb.S.cfg.outgoing_depth ∧ (∀ l ∈ exUsbRun, UsbUsed exSysApp l ∧ UsbListens exSysApp l) ∧
    ∃ u, u_run exUsb exUsbRun (UsbSys.new 0) = some u ∧ u.sys.client.calls.length = 2 ∧ Open u.sys ∧ Small exUsb.S u.sys ∧
      RequestsFit exUsb u.sys := by
  refine ⟨exUsb_sound, exSysApp_ok, exSysApp_declared, exUsb_fits, by decide, by decide, ?_⟩
  have h : (u_run exUsb exUsbRun (UsbSys.new 0)).map (fun u => (u.sys.client.calls.length, u.sys.client.stopped, u.sys.client.handles,
      u.sys.client.tx.map List.length)) = some (2, false, true, [64, 14]) := by decide +kernel
  obtain ⟨u, e1, e2⟩ := Option.map_eq_some_iff.mp h
  simp only [Prod.mk.injEq] at e2
  refine ⟨u, e1, e2.1, ⟨e2.2.1, e2.2.2.1⟩, exUsb_small _, fun b hb => ?_⟩
  have : b.length ∈ u.sys.client.tx.map List.length := List.mem_map.mpr ⟨b, hb, rfl⟩
  rw [e2.2.2.2] at this
  simp only [List.mem_cons, List.not_mem_nil, or_false] at this
  show b.length < 128
  omega

/-- Sends that fail after their first packet. -/
def exUsbCut : UsbCfg Nat WireTxErrorKind Nat Nat := { exUsb with S := { exSysLossy with enc := exLongEnc, cut := fun _ _ => 64 } }

/-- Two calls of the spawned endpoint.  The send of the first reply fails with one packet written; that of the second begins with
the empty packet that ends the transfer and fails likewise. -/
def exUsbCutRun : List (ULabel Nat) :=
  usbCall 0 5#8 0x85#8 [1] ++ usbCall 1 5#8 0x85#8 [2] ++
  [.client .out_poll, .client .out_recv, .host_packet, .client (.out_done true), .client .out_recv, .dev_read, .host_packet, .dev_read,
    .task_reply 0 11, .dev_write .ok, .dev_write (.cut false), .task_reply 1 22, .dev_write .ok, .dev_write (.err true)] ++
  usbRecv ([0x20, 0x85, 0, 0, 0, 0] ++ List.replicate 58 11) (some ⟨0, false⟩) ++ [.client (.call_ok 0)]

set_option synthInstance.maxSize 1000 in
/-- The first call gets the beginning of its reply, which the decoder is to reject; nothing of the second reply is in it. -/
theorem exUsbCut_result : (u_run exUsbCut exUsbCutRun (UsbSys.new 0)).map (fun u =>
      (u.sys.client.calls.map result, u.sys.outs.map fun o => (o.src, o.cut), u.cur.length, u.pending_frame)) =
    some ([some (false, ⟨⟨.Key1 ⟨0x85⟩, .Seq4 0⟩, List.replicate 58 11⟩, 0), none], [(.task 0, some 64), (.task 1, some 64)], 64, true) := by
  decide +kernel

/-- A decoder of exactly 70 bytes. -/
def exLongDec (b : Bytes) : Option Byte := if b.length = 70 then b.head? else none

/-- The theorem on typed calls applies. -/
example : UsbSound exUsbCut ∧ define_dispatch exSysApp = .ok exUsbCut.S.disp ∧ Declared exSysApp exUsbCut.S.kkind ∧
    KeysApart exSysApp exUsbCut.S ∧ (∀ l ∈ exUsbCutRun, UsbUsed exSysApp l) ∧ (∀ s, Small exUsbCut.S s) ∧
    (∀ v, RejectsCut exLongDec (exUsbCut.S.enc (.val v))) := by
  refine ⟨⟨⟨2, rfl⟩, by decide, by decide⟩, exSysApp_ok, exSysApp_declared, exSysApp_apart, by decide, exUsb_small, fun v n hn => ?_⟩
  have h70 : n < 70 := by simpa [exUsbCut, exLongEnc] using hn
  unfold exLongDec
  rw [if_neg]
  simp [exUsbCut, exLongEnc]
  omega

/-- The serializer of an application whose values take 1025 bytes; the last seven look like a message. -/
def exForgeEnc : Body Nat → Bytes
  | .val _ => List.replicate 1018 0 ++ [0x20, 0x85, 1, 0, 0, 0, 99]
  | .err _ => [0xEE]
  | _ => [0xAA]

def exUsbForge : UsbCfg Nat WireTxErrorKind Nat Nat := { exUsb with S := { exSys with enc := exForgeEnc } }

/-- A call of the blocking endpoint and one of the spawned endpoint, whose handler never replies. -/
def exForgeRun : List (ULabel Nat) :=
  usbCall 0 3#8 0x83#8 [1] ++ usbCall 1 5#8 0x85#8 [2] ++
  [.client .out_poll, .client .out_recv, .host_packet, .client (.out_done true), .client .out_recv, .dev_read, .host_packet, .flush] ++
  List.replicate 17 (.dev_write .ok) ++ [.dev_read] ++
  usbRecv ([0x20, 0x83, 0, 0, 0, 0] ++ List.replicate 1018 0) (some ⟨0, false⟩) ++ usbRecv [0x20, 0x85, 1, 0, 0, 0, 99] (some ⟨1, false⟩) ++
  [.client (.call_ok 0), .client (.call_ok 1)]

set_option synthInstance.maxSize 1000 in
/-- Without the bound of 1024 bytes the claim fails, though no send fails: a reply of 1031 bytes arrives as two messages, and the
second is taken for the reply to another call, whose handler has not replied. -/
theorem c84_long_reply_forges : (∀ l ∈ exForgeRun, UsbUsed exSysApp l ∧ UsbListens exSysApp l) ∧
    (u_run exUsbForge exForgeRun (UsbSys.new 0)).map (fun u =>
      ((u.sys.client.calls.map result)[1]?, u.sys.outs.map Out.src)) =
    some (some (some (false, ⟨⟨.Key1 ⟨0x85⟩, .Seq4 1⟩, [99]⟩, 1)), [.req 0]) := by
  refine ⟨by decide, by decide +kernel⟩

/-- A call whose request takes the whole receive buffer. -/
def exFullBufferRun : List (ULabel Nat) :=
  usbCall 0 3#8 0x83#8 (List.replicate 115 1) ++
  [.client .out_poll, .client .out_recv, .host_packet, .dev_read, .host_packet, .dev_read, .host_packet, .dev_read,
    .client (.out_done true), .client .out_yield, .client .in_poll]

set_option synthInstance.maxSize 1000 in
/-- Without the bound on requests the claim fails: a request as long as the receive buffer is dropped (it ends with a packet for
which there is no room) and the call waits with the whole system at rest. -/
theorem c84_full_buffer_hangs : (∀ l ∈ exFullBufferRun, UsbUsed exSysApp l ∧ UsbListens exSysApp l) ∧
    ∃ u, u_run exUsb exFullBufferRun (UsbSys.new 0) = some u ∧ (∀ b ∈ u.sys.client.tx, b.length = exUsb.rxlen) ∧
      UsbAtRest u ∧ ∃ cl k, u.sys.client.calls[0]? = some cl ∧ cl.phase = .waiting k := by
  have h : (u_run exUsb exFullBufferRun (UsbSys.new 0)).map (fun u => (waitsForEver u.sys, u.bus_out, u.ep_out, u.rx, u.sending.isNone, u.cur,
      u.sys.client.tx.map List.length)) = some (true, [], [], .filling [], true, [], [128]) := by decide +kernel
  obtain ⟨u, e1, e2⟩ := Option.map_eq_some_iff.mp h
  simp only [Prod.mk.injEq] at e2
  obtain ⟨w1, w2⟩ := waitsForEver_iff e2.1
  refine ⟨by decide, u, e1, fun b hb => ?_, ⟨w1, ⟨e2.2.1, e2.2.2.1, e2.2.2.2.1⟩, Option.isNone_iff_eq_none.mp e2.2.2.2.2.1, e2.2.2.2.2.2.1⟩, w2⟩
  have : b.length ∈ u.sys.client.tx.map List.length := List.mem_map.mpr ⟨b, hb, rfl⟩
  rw [e2.2.2.2.2.2.2, List.mem_singleton] at this
  exact this

set_option synthInstance.maxSize 1000 in
/-- The theorem on the device's writes applies: the second send of the run with cuts, which begins with the empty packet. -/
example : ((u_run exUsbCut (exUsbCutRun.take 21) (UsbSys.new 0)).bind fun u0 => (u_step exUsbCut u0 (.task_reply 1 22)).bind fun u =>
      (u_run exUsbCut ([.ok, .err true].map .dev_write) u).map fun u' => (u0.pending_frame, u'.sending.isNone, u'.pending_frame)) =
    some (true, true, true) := by decide +kernel

end PRpc.Props
