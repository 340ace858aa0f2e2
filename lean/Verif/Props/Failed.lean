import Verif.Lemmas.Failed
import Verif.Lemmas.UsbNext
import Verif.Props.Postcard
import Verif.Props.Linear
import Verif.Props.Session
/-! C90: what an error tells the caller about its request. -/

namespace PRpc.Props

open Spec

variable {V E SC Ctx : Type}

/-- The errors a session has sent, with what is behind them. -/
theorem sessions_errInv {a : App V E SC Ctx} {S : SysCfg V E SC Ctx} {es : List (Sys V E SC Ctx)} {s0 s : Sys V E SC Ctx}
    (hs : Sessions a S es s0) {ls : List (SLabel V)} (hrun : sys_run S ls s0 = some s) : ErrInv S s := by
  cases hs with
  | first c => exact sys_run_errInv hrun (ctxInv_new c S) (errInv_new S c)
  | next es t t' ls' _ _ _ _ =>
    refine sys_run_errInv (c0 := t'.srv.ctx) hrun ⟨rfl, rfl, fun j h => absurd h (Nat.not_lt_zero _), fun o j h => ?_, fun i x hi hx => ?_⟩
      fun o j e h => ?_
    · rcases h with h | h <;> cases h
    · have hx : t'.tasks[i]? = some x := hx
      have hi : t'.tasks.length ≤ i := hi
      rw [List.getElem?_eq_none hi] at hx
      cases hx
    · rcases h with h | h <;> cases h

/-- What is known of an error a call got. -/
theorem error_cause (a : App V E SC Ctx) (S : SysCfg V E SC Ctx) (hD : Receives a S.disp)
    (hdecl : Declared a S.kkind) (hcfg : S.cfg.err_key = a.std.error)
    (hdist : ∀ r ∈ a.endpoint_list.endpoints, short (keyLen S.kkind) r.resp ≠ short (keyLen S.kkind) a.std.error)
    (hdist' : ∀ t ∈ a.topic_out_list.topics, short (keyLen S.kkind) t.key ≠ short (keyLen S.kkind) a.std.error)
    {s : Sys V E SC Ctx} (inv : SysInv a S s) (einv : ErrInv S s)
    (hlen : s.client.calls.length < 2 ^ 32) {c : Nat} {cl : Call} {f : RpcFrame} {i : Nat}
    (hc : s.client.calls[c]? = some cl) (hres : result cl = some (true, f, i)) :
    ∃ o ∈ s.outs, ∃ j hdr body e, CarriesPart S.enc o f ∧ o.src = .req j ∧ o.frame.body = .err e ∧
      RefusedAt S.disp S.kkind s j hdr body e ∧
      ((RequestOf s c cl j hdr ∧ body = cl.rqst.body ∧
          (keyLen S.disp.n ≤ keyLen S.kkind → ∀ req, cl.rqst.header.key = .Key8 req → req ∈ handledKeys S.disp →
            e = .DeserFailed ∨ e = .SerFailed ∨ e = .FailedToSpawn)) ∨
        ∃ (p : Nat) (pb : Pub), s.client.pubs[p]? = some pb ∧ hdr.seq_no = pb.orig.header.seq_no ∧
          seqVal pb.orig.header.seq_no = seqVal cl.rqst.header.seq_no) := by
  obtain ⟨o, ho, j, hdr, e, h1, h2, h3, h4⟩ := error_message a S hD hdecl hcfg hdist hdist' inv hlen hc hres
  have href : ∃ hdr body, RefusedAt S.disp S.kkind s j hdr body e := by
    rcases einv o j e (.inl ho) h2 h3.body with ⟨t, g, x, hdr', v, ht, hg, hs⟩ | h
    · obtain ⟨r, hr, seq, b, hm⟩ := hdecl.sends t (by rw [← hD.tps]; exact ht) g hg x hdr' v o.frame hs
      exact absurd (hm.key.symm.trans h3.key) (hdist' r hr)
    · exact h
  obtain ⟨hdr', body, hr⟩ := href
  obtain ⟨b, b1, b2⟩ := hr.sent
  refine ⟨o, ho, j, hdr', body, e, h1, h2, h3.body, hr, ?_⟩
  rcases h4 with ⟨hq, r, hr1, hr2, hr3⟩ | ⟨p, pb, b', body', p1, p2, p3, p4, p5⟩
  · obtain ⟨b', q1, q2⟩ := hq.sent
    rw [b1] at q1
    cases q1
    obtain ⟨rfl, rfl⟩ := isFrame_unique b2 q2
    refine .inl ⟨hq, rfl, fun hlong req hreq hhand => ?_⟩
    have hl := taken_long hD hdecl hlong inv b1 b2
    cases VarKey.Key8.inj (hreq.symm.trans hr2)
    obtain ⟨ctx, ctx', _, _, hw⟩ := hr.why
    cases hw with
    | key_too_small h => exact absurd hl h
    | unknown _ h => exact absurd (hr3 hl) (h _ hhand)
    | ping_undecodable => exact .inl rfl
    | undecodable => exact .inl rfl
    | unsent => exact .inr (.inl rfl)
    | unspawned => exact .inr (.inr rfl)
  · rw [b1] at p2
    cases p2
    obtain ⟨rfl, rfl⟩ := isFrame_unique b2 p3
    exact .inr ⟨p, pb, p1, p4, p5⟩

/-- C90: in every session, an error a call got was sent by the server for the call's own request, or for a publication with its
sequence number, for the reason the error names: the handler has done no more than the reason says, and no task runs for the
request.  With a key the server handles, only three reasons are left, if the server's messages have keys at least as long as the
dispatcher's. -/
theorem c90_error_cause (a : App V E SC Ctx) (S : SysCfg V E SC Ctx) (hD : define_dispatch a = .ok S.disp)
    (hdecl : Declared a S.kkind) (hcfg : S.cfg.err_key = a.std.error)
    (hdist : ∀ r ∈ a.endpoint_list.endpoints, short (keyLen S.kkind) r.resp ≠ short (keyLen S.kkind) a.std.error)
    (hdist' : ∀ t ∈ a.topic_out_list.topics, short (keyLen S.kkind) t.key ≠ short (keyLen S.kkind) a.std.error)
    {es : List (Sys V E SC Ctx)} {s0 s : Sys V E SC Ctx} (hs : Sessions a S es s0) {ls : List (SLabel V)} (hu : ∀ l ∈ ls, Used a l)
    (hrun : sys_run S ls s0 = some s) (hlen : s.client.calls.length < 2 ^ 32) {c : Nat} {cl : Call} {f : RpcFrame} {i : Nat}
    (hc : s.client.calls[c]? = some cl) (hres : result cl = some (true, f, i)) :
    ∃ o ∈ s.outs, ∃ j hdr body e, CarriesPart S.enc o f ∧ o.src = .req j ∧ o.frame.body = .err e ∧
      RefusedAt S.disp S.kkind s j hdr body e ∧
      ((RequestOf s c cl j hdr ∧ body = cl.rqst.body ∧
          (keyLen S.disp.n ≤ keyLen S.kkind → ∀ req, cl.rqst.header.key = .Key8 req → req ∈ handledKeys S.disp →
            e = .DeserFailed ∨ e = .SerFailed ∨ e = .FailedToSpawn)) ∨
        ∃ (p : Nat) (pb : Pub), s.client.pubs[p]? = some pb ∧ hdr.seq_no = pb.orig.header.seq_no ∧
          seqVal pb.orig.header.seq_no = seqVal cl.rqst.header.seq_no) :=
  error_cause a S (dispatches hD) hdecl hcfg hdist hdist' (sys_run_inv hrun hu (sessions_start hs).inv) (sessions_errInv hs hrun) hlen hc hres

/-- What a `HostErr::Wire(e)` is behind. -/
theorem error_told (a : App V E SC Ctx) (S : SysCfg V E SC Ctx) (hD : Dispatches a S.disp)
    (hdecl : Declared a S.kkind) (hcfg : S.cfg.err_key = a.std.error)
    (hdist : ∀ r ∈ a.endpoint_list.endpoints, short (keyLen S.kkind) r.resp ≠ short (keyLen S.kkind) a.std.error)
    (hdist' : ∀ t ∈ a.topic_out_list.topics, short (keyLen S.kkind) t.key ≠ short (keyLen S.kkind) a.std.error)
    {encV : V → Bytes} {encN : Nty → Bytes} {w : Nat} {std : Bool} (henc : S.enc = enc_body encV encN w std)
    {s : Sys V E SC Ctx} (inv : SysInv a S s) (einv : ErrInv S s)
    (hlen : s.client.calls.length < 2 ^ 32) {R : Type} (decode : Bytes → Option R) {c : Nat} {cl : Call} {f : RpcFrame} {i : Nat} {e : WireError}
    (hc : s.client.calls[c]? = some cl) (hres : cl.phase = .done (.ErrResp f i))
    (htold : finish_call decode (from_bytes take_wire_error) (.ErrResp f i) = .Wire e) :
    ∃ j hdr body, RefusedAt S.disp S.kkind s j hdr body e ∧
      ((RequestOf s c cl j hdr ∧ body = cl.rqst.body ∧
          (keyLen S.disp.n ≤ keyLen S.kkind → ∀ req, cl.rqst.header.key = .Key8 req → req ∈ handledKeys S.disp →
            e = .DeserFailed ∨ e = .SerFailed ∨ e = .FailedToSpawn)) ∨
        ∃ (p : Nat) (pb : Pub), s.client.pubs[p]? = some pb ∧ hdr.seq_no = pb.orig.header.seq_no ∧
          seqVal pb.orig.header.seq_no = seqVal cl.rqst.header.seq_no) := by
  have hr : result cl = some (true, f, i) := by unfold result; rw [hres]
  obtain ⟨o, ho, j, hdr, body, e', h1, h2, h3, h4⟩ := error_cause a S hD hdecl hcfg hdist hdist' inv einv hlen hc hr
  have he : S.enc (.err e') = enc_wire_error e' := by rw [henc]; rfl
  obtain ⟨hpre, hcut⟩ := c85_error.1 e'
  have : e' = e := by
    have hb := h1.begins.2
    rw [h3, he] at hb
    obtain ⟨t, ht⟩ := hb
    by_cases hl : f.body.length < (enc_wire_error e').length
    · have := hcut f.body.length hl
      rw [← ht, List.take_left] at this
      simp only [finish_call, this] at htold
      cases htold
    · have : t = [] := by
        have := congrArg List.length ht
        rw [List.length_append] at this
        exact List.length_eq_zero_iff.mp (by omega)
      rw [this, List.append_nil] at ht
      have := hpre []
      rw [List.append_nil, ← ht] at this
      simp only [finish_call, this] at htold
      cases htold
      rfl
  subst this
  exact ⟨j, hdr, body, h4⟩

/-- C90: a call that returned `HostErr::Wire(e)` was refused for the reason `e` names. -/
theorem c90_error_told (a : App V E SC Ctx) (S : SysCfg V E SC Ctx) (hD : define_dispatch a = .ok S.disp)
    (hdecl : Declared a S.kkind) (hcfg : S.cfg.err_key = a.std.error)
    (hdist : ∀ r ∈ a.endpoint_list.endpoints, short (keyLen S.kkind) r.resp ≠ short (keyLen S.kkind) a.std.error)
    (hdist' : ∀ t ∈ a.topic_out_list.topics, short (keyLen S.kkind) t.key ≠ short (keyLen S.kkind) a.std.error)
    {encV : V → Bytes} {encN : Nty → Bytes} {w : Nat} {std : Bool} (henc : S.enc = enc_body encV encN w std)
    {es : List (Sys V E SC Ctx)} {s0 s : Sys V E SC Ctx} (hs : Sessions a S es s0) {ls : List (SLabel V)} (hu : ∀ l ∈ ls, Used a l)
    (hrun : sys_run S ls s0 = some s) (hlen : s.client.calls.length < 2 ^ 32) {R : Type} (decode : Bytes → Option R)
    {c : Nat} {cl : Call} {f : RpcFrame} {i : Nat} {e : WireError}
    (hc : s.client.calls[c]? = some cl) (hres : cl.phase = .done (.ErrResp f i))
    (htold : finish_call decode (from_bytes take_wire_error) (.ErrResp f i) = .Wire e) :
    ∃ j hdr body, RefusedAt S.disp S.kkind s j hdr body e ∧
      ((RequestOf s c cl j hdr ∧ body = cl.rqst.body ∧
          (keyLen S.disp.n ≤ keyLen S.kkind → ∀ req, cl.rqst.header.key = .Key8 req → req ∈ handledKeys S.disp →
            e = .DeserFailed ∨ e = .SerFailed ∨ e = .FailedToSpawn)) ∨
        ∃ (p : Nat) (pb : Pub), s.client.pubs[p]? = some pb ∧ hdr.seq_no = pb.orig.header.seq_no ∧
          seqVal pb.orig.header.seq_no = seqVal cl.rqst.header.seq_no) :=
  error_told a S (dispatches hD) hdecl hcfg hdist hdist' henc (sys_run_inv hrun hu (sessions_start hs).inv) (sessions_errInv hs hrun) hlen
    decode hc hres htold

/-- C90: an error that is neither `SerFailed` nor `FailedToSpawn` was given without touching the context; and `SerFailed` tells that
the handler did run. -/
theorem c90_untouched {D : Dispatcher V E SC Ctx} {kkind : VarKeyKind} {s : Sys V E SC Ctx} {j : Nat} {hdr : VarHeader} {body : Bytes}
    {e : WireError} (h : RefusedAt D kkind s j hdr body e) :
    (e ≠ .SerFailed → e ≠ .FailedToSpawn → ∃ ctx, (contexts s)[j]? = some ctx ∧ (contexts s)[j + 1]? = some ctx) ∧
    (e = .SerFailed → ∃ (h : EpHandler V Ctx) (g : Ctx → VarHeader → V → V × Ctx) (v : V) (ctx : Ctx), ForEndpoint D hdr h ∧
      (h.flavor = .blocking g ∨ h.flavor = .async g) ∧ h.decode body = some v ∧ (contexts s)[j]? = some ctx ∧
      (contexts s)[j + 1]? = some (g ctx hdr v).2) ∧
    (∀ n m, e ≠ .FrameTooLong n m) ∧ ∀ n, e ≠ .FrameTooShort n := by
  obtain ⟨ctx, ctx', h1, h2, hw⟩ := h.why
  cases hw with
  | key_too_small h => exact ⟨fun _ _ => ⟨ctx, h1, h2⟩, nofun, fun _ _ => nofun, fun _ => nofun⟩
  | unknown => exact ⟨fun _ _ => ⟨ctx, h1, h2⟩, nofun, fun _ _ => nofun, fun _ => nofun⟩
  | ping_undecodable => exact ⟨fun _ _ => ⟨ctx, h1, h2⟩, nofun, fun _ _ => nofun, fun _ => nofun⟩
  | undecodable => exact ⟨fun _ _ => ⟨ctx, h1, h2⟩, nofun, fun _ _ => nofun, fun _ => nofun⟩
  | unsent p g v fr x h3 h4 h5 => exact ⟨fun h => absurd rfl h, fun _ => ⟨p, g, v, ctx, h3, h4, h5, h1, h2⟩, fun _ _ => nofun, fun _ => nofun⟩
  | unspawned => exact ⟨fun _ h => absurd rfl h, nofun, fun _ _ => nofun, fun _ => nofun⟩

/-! ### Over a USB cable -/

theorem refused_abs {D : Dispatcher V E SC Ctx} {kk : VarKeyKind} {u : UsbSys V E SC Ctx} {j : Nat} {hdr : VarHeader} {body : Bytes}
    {e : WireError} (h : RefusedAt D kk u.abs j hdr body e) : RefusedAt D kk u.sys j hdr body e := ⟨h.sent, h.why, h.unspawned⟩

/-- C90, what `HostErr::Wire(e)` tells, over a USB cable. -/
theorem c90_usb_error_told (a : App V E SC Ctx) (U : UsbCfg V E SC Ctx) (hU : UsbSound U) (hD : define_dispatch a = .ok U.S.disp)
    (hdecl : Declared a U.S.kkind) (hcfg : U.S.cfg.err_key = a.std.error)
    (hdist : ∀ r ∈ a.endpoint_list.endpoints, short (keyLen U.S.kkind) r.resp ≠ short (keyLen U.S.kkind) a.std.error)
    (hdist' : ∀ t ∈ a.topic_out_list.topics, short (keyLen U.S.kkind) t.key ≠ short (keyLen U.S.kkind) a.std.error)
    {encV : V → Bytes} {encN : Nty → Bytes} {w : Nat} {std : Bool} (henc : U.S.enc = enc_body encV encN w std)
    {es : List (UsbSys V E SC Ctx)} {u0 u : UsbSys V E SC Ctx} (h0 : UsbSessions a U DevIdle es u0) {ls : List (ULabel V)}
    (hu : ∀ l ∈ ls, UsbUsed a l) (hrun : u_run U ls u0 = some u) (hsm : Small U.S u.sys) (hlen : u.sys.client.calls.length < 2 ^ 32)
    {R : Type} (decode : Bytes → Option R) {c : Nat} {cl : Call} {f : RpcFrame} {i : Nat} {e : WireError}
    (hc : u.sys.client.calls[c]? = some cl) (hres : cl.phase = .done (.ErrResp f i))
    (htold : finish_call decode (from_bytes take_wire_error) (.ErrResp f i) = .Wire e) :
    ∃ j hdr body, RefusedAt U.S.disp U.S.kkind u.sys j hdr body e ∧
      ((RequestOf u.sys c cl j hdr ∧ body = cl.rqst.body ∧
          (keyLen U.S.disp.n ≤ keyLen U.S.kkind → ∀ req, cl.rqst.header.key = .Key8 req → req ∈ handledKeys U.S.disp →
            e = .DeserFailed ∨ e = .SerFailed ∨ e = .FailedToSpawn)) ∨
        ∃ (p : Nat) (pb : Pub), u.sys.client.pubs[p]? = some pb ∧ hdr.seq_no = pb.orig.header.seq_no ∧
          seqVal pb.orig.header.seq_no = seqVal cl.rqst.header.seq_no) := by
  obtain ⟨ls', hu', hr⟩ := next_run hU h0 hu hrun hsm
  obtain ⟨j, hdr, body, h1, h2⟩ := c90_error_told a U.S hD hdecl hcfg hdist hdist' henc (usb_sessions hU h0).2 (s := u.abs) hu' hr hlen
    decode hc hres htold
  exact ⟨j, hdr, body, refused_abs h1, h2.imp (fun h => ⟨request_abs h.1, h.2⟩) id⟩

/-! ### A concrete case -/

/-- A server whose replies cannot be sent and that can spawn no task. -/
def exRefuse : SysCfg Nat WireTxErrorKind Nat Nat :=
  { exPcSys with env := ⟨fun _ f => match f.body with | .val _ => some .ConnectionClosed | _ => none, fun _ _ => false, true⟩ }

/-- A call whose reply cannot be sent, one whose task cannot be spawned and one that cannot be decoded. -/
def exRefuseRun : List (SLabel Nat) :=
  sysCall 0 3#8 0x83#8 [7] ++ sysCall 1 5#8 0x85#8 [1] ++ sysCall 2 4#8 0x84#8 [] ++ sysSend ++ sysSend ++ sysSend ++
  [.serve, .flush, .flush, .serve, .flush, .serve, .flush] ++ sysRecv [0x20, 0xE0, 0, 0, 0, 0, 3] (some ⟨0, true⟩) ++
  sysRecv [0x20, 0xE0, 1, 0, 0, 0, 5] (some ⟨1, true⟩) ++ sysRecv [0x20, 0xE0, 2, 0, 0, 0, 2] (some ⟨2, true⟩) ++
  [.client (.call_err 0), .client (.call_err 1), .client (.call_err 2)]

set_option synthInstance.maxSize 1000 in
/-- The first call got `SerFailed`, though its handler did change the context, the second `FailedToSpawn` with what `spawn_ctxt` left, the
third `DeserFailed` with the context as it was. -/
theorem exRefuseRun_result : (sys_run exRefuse exRefuseRun (Sys.new 0)).map (fun s => (s.client.calls.map (·.phase), contexts s)) =
    some ([.done (.ErrResp ⟨⟨.Key1 ⟨0xE0⟩, .Seq4 0⟩, [3]⟩ 0), .done (.ErrResp ⟨⟨.Key1 ⟨0xE0⟩, .Seq4 1⟩, [5]⟩ 1),
      .done (.ErrResp ⟨⟨.Key1 ⟨0xE0⟩, .Seq4 2⟩, [2]⟩ 2)], [0, 1, 101, 101]) := by decide +kernel

/-- The theorems apply. -/
example : define_dispatch exPcApp = .ok exRefuse.disp ∧ Declared exPcApp exRefuse.kkind ∧ exRefuse.cfg.err_key = exPcApp.std.error ∧
    (∀ r ∈ exPcApp.endpoint_list.endpoints, short (keyLen exRefuse.kkind) r.resp ≠ short (keyLen exRefuse.kkind) exPcApp.std.error) ∧
    (∀ t ∈ exPcApp.topic_out_list.topics, short (keyLen exRefuse.kkind) t.key ≠ short (keyLen exRefuse.kkind) exPcApp.std.error) ∧
    exRefuse.enc = enc_body (fun v => enc_u32 (BitVec.ofNat 32 v)) (fun _ => []) 4 false ∧ Sessions exPcApp exRefuse [] (Sys.new 0) ∧
    (∀ l ∈ exRefuseRun, Used exPcApp l) ∧ keyLen exRefuse.disp.n ≤ keyLen exRefuse.kkind ∧
    (∀ k ∈ [exKey 3, exKey 5, exKey 4], k ∈ handledKeys exRefuse.disp) ∧
    finish_call (R := Nat) (fun _ => none) (from_bytes take_wire_error) (.ErrResp ⟨⟨.Key1 ⟨0xE0⟩, .Seq4 0⟩, [3]⟩ 0) = .Wire .SerFailed ∧
    finish_call (R := Nat) (fun _ => none) (from_bytes take_wire_error) (.ErrResp ⟨⟨.Key1 ⟨0xE0⟩, .Seq4 1⟩, [5]⟩ 1) = .Wire .FailedToSpawn :=
  ⟨exPcApp_ok, exPcApp_declared, rfl, by decide, by decide, rfl, .first 0, by decide, by decide, by decide, rfl, rfl⟩

/-- The same server at a USB cable. -/
def exUsbRefuse : UsbCfg Nat WireTxErrorKind Nat Nat := ⟨exRefuse, 128, false, 1⟩

/-- A call over the cable whose task cannot be spawned. -/
def exUsbRefuseRun : List (ULabel Nat) :=
  usbCall 0 5#8 0x85#8 [1] ++
  [.client .out_poll, .client .out_recv, .host_packet, .dev_read, .flush, .client (.out_done true), .client .out_yield, .dev_write .ok] ++
  usbRecv [0x20, 0xE0, 0, 0, 0, 0, 5] (some ⟨0, true⟩) ++ [.client (.call_err 0)]

set_option synthInstance.maxSize 1000 in
theorem exUsbRefuse_result : (u_run exUsbRefuse exUsbRefuseRun (UsbSys.new 0)).map (fun u => (u.sys.client.calls.map (·.phase), contexts u.sys,
      u.sys.outs.map fun o => (exRefuse.enc o.frame.body).length)) =
    some ([.done (.ErrResp ⟨⟨.Key1 ⟨0xE0⟩, .Seq4 0⟩, [5]⟩ 0)], [0, 100], [1]) := by decide +kernel

instance decUsbUsedPc (l : ULabel Nat) : Decidable (UsbUsed exPcApp l) := by
  cases l <;> (unfold UsbUsed; infer_instance)

/-- The theorem on the cable applies. -/
example : UsbSound exUsbRefuse ∧ define_dispatch exPcApp = .ok exUsbRefuse.S.disp ∧
    UsbSessions exPcApp exUsbRefuse DevIdle [] (UsbSys.new 0) ∧ (∀ l ∈ exUsbRefuseRun, UsbUsed exPcApp l) ∧
    ∃ u, u_run exUsbRefuse exUsbRefuseRun (UsbSys.new 0) = some u ∧ Small exUsbRefuse.S u.sys ∧ u.sys.client.calls.length < 2 ^ 32 ∧
      ∃ cl, u.sys.client.calls[0]? = some cl ∧ cl.phase = .done (.ErrResp ⟨⟨.Key1 ⟨0xE0⟩, .Seq4 0⟩, [5]⟩ 0) := by
  refine ⟨⟨⟨2, rfl⟩, by decide, by decide⟩, exPcApp_ok, .first 0, by decide, ?_⟩
  obtain ⟨u, e1, e2⟩ := Option.map_eq_some_iff.mp exUsbRefuse_result
  simp only [Prod.mk.injEq] at e2
  obtain ⟨h1, _, h2⟩ := e2
  have hl : u.sys.client.calls.length = 1 := by simpa using congrArg List.length h1
  refine ⟨u, e1, small_of_enc _ fun o ho => ?_, by omega, ?_⟩
  · have h3 : (exRefuse.enc o.frame.body).length ∈ [1] := by rw [← h2]; exact List.mem_map.mpr ⟨o, ho, rfl⟩
    have h4 : (exUsbRefuse.S.enc o.frame.body).length = 1 := List.mem_singleton.mp h3
    omega
  · have := congrArg (·[0]?) h1
    simp only [List.getElem?_map] at this
    exact Option.map_eq_some_iff.mp this

end PRpc.Props
