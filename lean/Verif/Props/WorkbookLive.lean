import Verif.Lemmas.WorkbookLive
import Verif.Props.Workbook
import Verif.Props.Failed
/-! C89: every method of `WorkbookClient` returns. -/

namespace PRpc.Props

open Spec

variable {E : Type}

/-- The invariants of a run of such a program. -/
theorem wb_run_live (I : WbIcd) (U : UsbCfg WbVal E Unit WbCtx) (hU : UsbSound U) (hD : define_dispatch (wb_app E I) = .ok U.S.disp)
    (hkk : U.S.kkind = U.S.disp.n) (ha : WbApart I (keyLen U.S.disp.n)) (henc : ∀ v, U.S.enc (.val v) = enc_wb v)
    (hsize : ∀ b, (∀ v, b ≠ .val v) → (U.S.enc b).length ≤ 1000) (hbuf : 128 ≤ U.rxlen) (hF : Fits (wb_full E I) U.S)
    {ls : List (ULabel WbVal)} {c0 : WbCtx} {u : UsbSys WbVal E Unit WbCtx}
    (hu : ∀ l ∈ ls, WbUses I l) (hl : ∀ l ∈ ls, WbListens I l) (hrun : u_run U ls (UsbSys.new c0) = some u)
    (hlen : u.sys.client.calls.length < 2 ^ 32) : UsbLive (wb_full E I) U u ∧ RequestsFit U u.sys := by
  have hDi := wb_dispatches hD ha
  have hsm := wb_small henc hsize u.sys
  obtain ⟨_, ls', hr, hst⟩ := sim_run hU.buffer hU.some_buffer (usbInv_new U.S c0) hsm hrun
  have inv := sys_run_inv hr (fun l' hl' => by
    obtain ⟨l, hl, h⟩ := hst l' hl'
    exact stands_used h (wb_used (hu l hl))) (sysInv_new (wb_full E I) U.S c0)
  obtain ⟨ms, hm⟩ := c89_made I U hU henc hsize hu hrun
  have hfit : RequestsFit U u.sys := wb_requests_fit (s := u.abs) hDi inv hbuf ⟨hm.len, hm.call⟩
  exact ⟨usb_run_live hDi (wb_declared E I U.S.kkind) hF hU (usbLive_new _ U c0) hsm hfit hlen (fun l h => ⟨wb_used (hu l h), wb_listens (hl l h)⟩) hrun, hfit⟩

theorem wb_own {Ctx : Type} {I : WbIcd} {U : UsbCfg WbVal E Unit Ctx} {u v : UsbSys WbVal E Unit Ctx} {own : List (ULabel WbVal)} (h : UsbOwnRun U u own v) :
    ∀ l ∈ own, WbUses I l ∧ WbListens I l := by
  induction h with
  | nil => exact nofun
  | cons ho h hr ih =>
    rintro l hl
    rcases List.mem_cons.mp hl with rfl | hl
    · cases l with
      | client l => cases l <;> first | trivial | exact ⟨trivial, trivial⟩ | exact (ho : False).elim
      | app_publish => exact (ho : False).elim
      | _ => exact ⟨trivial, trivial⟩
    · exact ih l hl

/-- C89: if the device's sends succeed and nobody closes the client, then wherever host, cable and board, left to themselves, come to
rest, every method called has returned (or its future was dropped), and with something else than an error of the communication: unless it is
`start_accelerometer` and no task could be spawned. -/
theorem c89_returns (I : WbIcd) (U : UsbCfg WbVal E Unit WbCtx) (hU : UsbSound U) (hD : define_dispatch (wb_app E I) = .ok U.S.disp)
    (hkk : U.S.kkind = U.S.disp.n) (ha : WbApart I (keyLen U.S.disp.n)) (henc : ∀ v, U.S.enc (.val v) = enc_wb v)
    (htot : ∀ t, U.S.enc (.totals t) = enc_totals t)
    (hsize : ∀ b, (∀ v, b ≠ .val v) → (U.S.enc b).length ≤ 1000) (hbuf : 128 ≤ U.rxlen) (hsend : ∀ log f, U.S.env.send log f = none)
    (herr : U.S.cfg.err_key = I.std.error) (hdepth : 0 < U.S.cfg.outgoing_depth)
    (hcount : U.S.env.overflow_checks = false ∨ (schemaMsgs U.S.disp.device_map).length ≤ 65535)
    {ls : List (ULabel WbVal)} {id : BitVec 64} {held : Nat → Bool} {u : UsbSys WbVal E Unit WbCtx}
    (hu : ∀ l ∈ ls, WbUses I l) (hl : ∀ l ∈ ls, WbListens I l) (hrun : u_run U ls (UsbSys.new (wb_ctx id held)) = some u)
    (hlen : u.sys.client.calls.length < 2 ^ 32) (hopen : Open u.sys) {ms : List WbMethod} (hm : Made I u.sys ms)
    {own : List (ULabel WbVal)} {v : UsbSys WbVal E Unit WbCtx} (ho : UsbOwnRun U u own v) (hstuck : UsbStuck U v) :
    UsbAtRest v ∧ (∀ l ∈ own, WbUses I l) ∧ Made I v.sys ms ∧ ∀ (c : Nat) (cl : Call) (m : WbMethod), v.sys.client.calls[c]? = some cl → ms[c]? = some m →
      cl.phase = .dropped ∨ ∃ r, cl.phase = .done r ∧ (wb_result m r ≠ .comms ∨ NotStarted v.sys.srv.log cl m) := by
  have hDi := wb_dispatches hD ha
  have hdecl := wb_declared E I U.S.kkind
  have hap : WbApart I (keyLen U.S.kkind) := by rw [hkk]; exact ha
  have hF : Fits (wb_full E I) U.S := wb_fits hsend herr hcount hap
  obtain ⟨inv0, _⟩ := wb_run_live I U hU hD hkk ha henc hsize hbuf hF hu hl hrun hlen
  have hown := wb_own (I := I) ho
  have hrun' : u_run U (ls ++ own) (UsbSys.new (wb_ctx id held)) = some v := u_run_append hrun (usb_own_run ho)
  have hu' : ∀ l ∈ ls ++ own, WbUses I l := fun l h => (List.mem_append.mp h).elim (hu l) (fun h => (hown l h).1)
  have hl' : ∀ l ∈ ls ++ own, WbListens I l := fun l h => (List.mem_append.mp h).elim (hl l) (fun h => (hown l h).2)
  have hsm := wb_small henc hsize v.sys
  obtain ⟨_, ls', hr, hst⟩ := sim_run hU.buffer hU.some_buffer (usbInv_new U.S (wb_ctx id held)) hsm hrun'
  have inv := sys_run_inv hr (fun l' hl' => by
    obtain ⟨l, hl, h⟩ := hst l' hl'
    exact stands_used h (wb_used (hu' l hl))) (sysInv_new (wb_full E I) U.S (wb_ctx id held))
  have cinv := sys_run_ctxInv hr (ctxInv_new (wb_ctx id held) U.S)
  have einv := sys_run_errInv hr (ctxInv_new (wb_ctx id held) U.S) (errInv_new U.S (wb_ctx id held))
  have hold : v.abs.old = 0 := sys_run_new_old hr
  obtain ⟨ms0, hm0⟩ := c89_made I U hU henc hsize hu' hrun'
  have hfit : RequestsFit U v.sys := wb_requests_fit (s := v.abs) hDi inv hbuf ⟨hm0.len, hm0.call⟩
  obtain ⟨i1, i2, i3⟩ := usb_own_inv hDi hdecl hF hU ho inv0 hsm hfit hlen
  have hlen' : v.abs.client.calls.length < 2 ^ 32 := by
    show v.sys.client.calls.length < 2 ^ 32
    omega
  have hrest := usb_stuck_rest hU hF hdepth i1 (i2 hopen) hstuck
  have hm : Made I v.sys ms := by
    obtain ⟨_, lo, hro, _⟩ := sim_run hU.buffer hU.some_buffer inv0.usb hsm (usb_own_run ho)
    have hlat := sys_run_later hro
    refine ⟨by rw [hm.len, i3], fun c cl m hc hmc => ?_⟩
    have hlt : c < u.sys.client.calls.length := by rw [← i3]; exact getElem?_lt hc
    obtain ⟨cl', h1, h2⟩ := hlat.calls c _ (List.getElem?_eq_getElem hlt)
    have e : cl' = cl := Option.some.inj (h1.symm.trans hc)
    subst e
    obtain ⟨k1, k2, k3⟩ := hm.call c _ m (List.getElem?_eq_getElem hlt) hmc
    simp only [Call.sig, Prod.mk.injEq] at h2
    rw [h2.1, h2.2.1]
    exact ⟨k1, k2, k3⟩
  refine ⟨hrest, fun l h => (hown l h).1, hm, fun c cl m hc hmc => ?_⟩
  obtain ⟨k1, k2, k3⟩ := hm.call c cl m hc hmc
  obtain ⟨h1, _⟩ := usb_stuck hU hF i1 (i2 hopen) hstuck
  rcases rest_answered i1.sys i1.live (stuck_atRest hdepth hF i1.sys i1.live (i2 hopen) h1) (c := c) hc with hd | ⟨err, f, i, hres⟩
  · exact .inl hd
  right
  have hphase : cl.phase = .done (if err then .ErrResp f i else .Resp f i) := by
    unfold result at hres
    split at hres <;> cases hres <;> assumption
  refine ⟨_, hphase, ?_⟩
  cases err with
  | false =>
    left
    obtain ⟨o, hout, j, hdr, req, g1, g2, g3, g4⟩ := board_reply hD hkk ha inv hold hlen' (s := v.abs) hc hphase
    obtain ⟨b, hb, hf⟩ := g2.sent
    have hap := reply_applied cinv hb hf hout g4
    rw [k3] at hap
    have hrx : rxShort U.S.disp hdr = short (keyLen U.S.disp.n) (m.req I) := by
      obtain ⟨cl', b', hdr', req', e1, e2, e3, e4, e5, e6, e7⟩ := (reply_asked g2 g3 g4).asked
      cases e1.symm.trans hc
      cases e2.symm.trans hb
      obtain ⟨rfl, _⟩ := isFrame_unique hf e3
      rw [e7, VarKey.Key8.inj (e5.symm.trans k1)]
    exact method_whole hD ha henc htot hrx hap (g1.whole (i1.whole.outs o hout)).2
  | true =>
    right
    obtain ⟨o, hout, j, hdr, body, e, g1, g2, g3, g4, ⟨q, rfl, _⟩ | ⟨p, pb, hp, _⟩⟩ := error_cause (wb_full E I) U.S hDi hdecl herr
      (wb_error_apart hap).1 (wb_error_apart hap).2 inv einv hlen' (s := v.abs) hc hres
    · obtain ⟨b, b1, b2⟩ := g4.sent
      have hlong := taken_long hDi hdecl (by rw [hkk]; exact Nat.le_refl _) inv b1 b2
      obtain ⟨ctx, ctx', _, _, hw⟩ := g4.why
      rw [k3] at hw
      refine method_refused hD ha i1.whole.log hlong ?_ hw q.seq
      rcases taken_origin hDi hdecl inv ⟨b, b1, (isFrame_iff ..).mp b2⟩ with ⟨c', cl', r', k, hc', hr', ek', er', eh, eb, erx⟩ | ⟨p, pb, hp, t, ht', es, _⟩
      · have esq : hdr.seq_no = cl'.rqst.header.seq_no := by rw [eh]; rfl
        cases q.only c' cl' hc' (by rw [esq])
        cases hc'.symm.trans hc
        rw [erx hlong, VarKey.Key8.inj (ek'.symm.trans k1)]
      · cases ht'
    · obtain ⟨t, ht, _⟩ := inv.pubs p pb hp
      cases ht

/-- C89: left to themselves, host, cable and board can come to rest. -/
theorem c89_comes_to_rest (I : WbIcd) (U : UsbCfg WbVal E Unit WbCtx) (hU : UsbSound U) (hD : define_dispatch (wb_app E I) = .ok U.S.disp)
    (hkk : U.S.kkind = U.S.disp.n) (ha : WbApart I (keyLen U.S.disp.n)) (henc : ∀ v, U.S.enc (.val v) = enc_wb v)
    (hsize : ∀ b, (∀ v, b ≠ .val v) → (U.S.enc b).length ≤ 1000) (hbuf : 128 ≤ U.rxlen) (hsend : ∀ log f, U.S.env.send log f = none)
    (herr : U.S.cfg.err_key = I.std.error)
    (hcount : U.S.env.overflow_checks = false ∨ (schemaMsgs U.S.disp.device_map).length ≤ 65535)
    {ls : List (ULabel WbVal)} {c0 : WbCtx} {u : UsbSys WbVal E Unit WbCtx}
    (hu : ∀ l ∈ ls, WbUses I l) (hl : ∀ l ∈ ls, WbListens I l) (hrun : u_run U ls (UsbSys.new c0) = some u)
    (hlen : u.sys.client.calls.length < 2 ^ 32) :
    (∃ own v, UsbOwnRun U u own v ∧ UsbStuck U v) ∧
    ¬ ∃ (f : Nat → UsbSys WbVal E Unit WbCtx) (g : Nat → ULabel WbVal), f 0 = u ∧ ∀ n, UsbOwn (f n) (g n) ∧ u_step U (f n) (g n) = some (f (n + 1)) := by
  have hDi := wb_dispatches hD ha
  have hdecl := wb_declared E I U.S.kkind
  have hap : WbApart I (keyLen U.S.kkind) := by rw [hkk]; exact ha
  have hF : Fits (wb_full E I) U.S := wb_fits hsend herr hcount hap
  obtain ⟨inv0, _⟩ := wb_run_live I U hU hD hkk ha henc hsize hbuf hF hu hl hrun hlen
  have later : ∀ {own : List (ULabel WbVal)} {v : UsbSys WbVal E Unit WbCtx}, UsbOwnRun U u own v → Small U.S v.sys ∧ RequestsFit U v.sys := by
    intro own v ho
    have hown := wb_own (I := I) ho
    have hrun' : u_run U (ls ++ own) (UsbSys.new c0) = some v := u_run_append hrun (usb_own_run ho)
    have hu' : ∀ l ∈ ls ++ own, WbUses I l := fun l h => (List.mem_append.mp h).elim (hu l) (fun h => (hown l h).1)
    have hsm := wb_small henc hsize v.sys
    obtain ⟨_, ls', hr, hst⟩ := sim_run hU.buffer hU.some_buffer (usbInv_new U.S c0) hsm hrun'
    have inv := sys_run_inv hr (fun l' hl' => by
      obtain ⟨l, hl, h⟩ := hst l' hl'
      exact stands_used h (wb_used (hu' l hl))) (sysInv_new (wb_full E I) U.S c0)
    obtain ⟨ms, hm⟩ := c89_made I U hU henc hsize hu' hrun'
    exact ⟨hsm, wb_requests_fit (s := v.abs) hDi inv hbuf ⟨hm.len, hm.call⟩⟩
  constructor
  · obtain ⟨own, v, ho, h⟩ := usb_to_stuck hDi hdecl hF hU inv0 hlen
    exact ⟨own, v, ho, h.resolve_left fun h => h (later ho)⟩
  · rintro ⟨f, g, h0, hf⟩
    have run : ∀ n, ∃ own, UsbOwnRun U u own (f n) := by
      intro n
      induction n with
      | zero => exact ⟨[], h0 ▸ .nil _⟩
      | succ n ih =>
        obtain ⟨own, h⟩ := ih
        exact ⟨_, usb_own_snoc h (hf n).1 (hf n).2⟩
    exact usb_own_finite hDi hdecl hF hU inv0 hlen ⟨f, g, h0, fun n => ⟨later (run n).choose_spec, hf n⟩⟩

/-! ### A concrete board -/

/-- The bytes of what is sent; a schema report is not asked for here. -/
def exWbEnc2 : Body WbVal → Bytes
  | .val v => enc_wb v
  | .err e => enc_wire_error e
  | .totals t => enc_totals t
  | .schema _ => [0]

/-- The board of C89, with or without room for tasks. -/
def exWb2 (room : Bool) : UsbCfg WbVal WireTxErrorKind Unit WbCtx :=
  { exWb with S := { exWb.S with enc := exWbEnc2, env := ⟨fun _ _ => none, fun _ _ => room, true⟩ } }

theorem exWb2_size : ∀ b, (∀ v, b ≠ .val v) → (exWbEnc2 b).length ≤ 1000 := by
  have h := enc_u32_len
  intro b hb
  cases b with
  | val v => exact absurd rfl (hb v)
  | err e =>
    cases e
    case FrameTooLong x y =>
      have := h 0#32
      have := h x
      have := h y
      simp only [exWbEnc2, enc_wire_error, List.length_append]
      omega
    case FrameTooShort x =>
      have := h 1#32
      have := h x
      simp only [exWbEnc2, enc_wire_error, List.length_append]
      omega
    all_goals exact Nat.le_of_ble_eq_true rfl
  | totals t =>
    have := h t.types_sent
    have := h t.endpoints_sent
    have := h t.topics_in_sent
    have := h t.topics_out_sent
    have := h t.errors
    simp only [exWbEnc2, enc_totals, List.length_append]
    omega
  | schema => exact Nat.le_of_ble_eq_true rfl

theorem exWb_apart : WbApart exIcd (keyLen exWb.S.disp.n) := ⟨distinct_of_nodup (by decide), distinct_of_nodup (by decide)⟩

theorem exWb2_ready (room : Bool) : UsbSound (exWb2 room) ∧ define_dispatch (wb_app WireTxErrorKind exIcd) = .ok (exWb2 room).S.disp ∧
    (exWb2 room).S.kkind = (exWb2 room).S.disp.n ∧ WbApart exIcd (keyLen (exWb2 room).S.disp.n) ∧ (∀ v, (exWb2 room).S.enc (.val v) = enc_wb v) ∧
    (∀ t, (exWb2 room).S.enc (.totals t) = enc_totals t) ∧ (∀ b, (∀ v, b ≠ .val v) → ((exWb2 room).S.enc b).length ≤ 1000) ∧
    128 ≤ (exWb2 room).rxlen ∧ (∀ log f, (exWb2 room).S.env.send log f = none) ∧ (exWb2 room).S.cfg.err_key = exIcd.std.error ∧
    0 < (exWb2 room).S.cfg.outgoing_depth ∧ (schemaMsgs (exWb2 room).S.disp.device_map).length ≤ 65535 :=
  ⟨⟨⟨16, rfl⟩, Nat.le_of_ble_eq_true rfl, Nat.le_of_ble_eq_true rfl⟩, exWb_ok, rfl, exWb_apart, fun _ => rfl, fun _ => rfl,
    exWb2_size, Nat.le_of_ble_eq_true rfl, fun _ _ => rfl, rfl, Nat.le_of_ble_eq_true rfl, Nat.le_of_ble_eq_true rfl⟩

/-- LED 3 is being set: the method has been called and nothing else has happened yet. -/
def exWbAsked : List (ULabel WbVal) := [.client (.call_begin (exKey 0x13) (exKey 0xB3) [3, 10, 20, 30])]

/-- The theorems apply: left to themselves, host, cable and board come to rest, and the method has returned with something else
than an error of the communication. -/
example : ∃ u own v, u_run (exWb2 true) exWbAsked (UsbSys.new (wb_ctx 300 fun _ => false)) = some u ∧ UsbOwnRun (exWb2 true) u own v ∧
    UsbStuck (exWb2 true) v ∧ ∃ cl, v.sys.client.calls[0]? = some cl ∧
      (cl.phase = .dropped ∨ ∃ r, cl.phase = .done r ∧ wb_result (.set_rgb_single 3 10 20 30) r ≠ .comms) := by
  obtain ⟨hU, hD, hkk, ha, henc, htot, hsize, hbuf, hsend, herr, hdepth, hcount⟩ := exWb2_ready true
  have hu : ∀ l ∈ exWbAsked, WbUses exIcd l := by
    intro l hl
    cases List.mem_singleton.mp hl
    exact ⟨.set_rgb_single 3 10 20 30, rfl, rfl, by decide⟩
  have hl : ∀ l ∈ exWbAsked, WbListens exIcd l := by
    intro l hl
    cases List.mem_singleton.mp hl
    trivial
  obtain ⟨u, e1⟩ : ∃ u, u_run (exWb2 true) exWbAsked (UsbSys.new (wb_ctx 300 fun _ => false)) = some u := ⟨_, rfl⟩
  have hlen : u.sys.client.calls.length = 1 := by cases e1; rfl
  have hopen : Open u.sys := by cases e1; exact ⟨rfl, rfl⟩
  have hlt : u.sys.client.calls.length < 2 ^ 32 := by omega
  obtain ⟨⟨own, v, ho, hst⟩, _⟩ := c89_comes_to_rest exIcd (exWb2 true) hU hD hkk ha henc hsize hbuf hsend herr (.inr hcount) hu hl e1 hlt
  have hm : Made exIcd u.sys [.set_rgb_single 3 10 20 30] := by
    refine ⟨hlen.symm, fun c cl m hc hmc => ?_⟩
    cases e1
    match c, hc, hmc with
    | 0, hc, hmc => cases hc; cases hmc; exact ⟨rfl, rfl, by decide⟩
  obtain ⟨h1, h2, h3, h4⟩ := c89_returns exIcd (exWb2 true) hU hD hkk ha henc htot hsize hbuf hsend herr hdepth (.inr hcount) hu hl e1 hlt hopen hm ho hst
  obtain ⟨cl, hc⟩ : ∃ cl, v.sys.client.calls[0]? = some cl := ⟨_, List.getElem?_eq_getElem (by rw [← h3.len]; decide)⟩
  refine ⟨u, own, v, e1, ho, hst, cl, hc, ?_⟩
  rcases h4 0 cl _ hc rfl with h | ⟨r, h, h' | h'⟩
  · exact .inl h
  · exact .inr ⟨r, h, h'⟩
  · obtain ⟨_, _, _, _, h', _⟩ := h'.refused
    cases h'

/-- And the exception there is: without room for a task `start_accelerometer` fails. -/
def exWbNoRoom : List (ULabel WbVal) :=
  [.client (.call_begin (exKey 0x15) (exKey 0xB5) [100, 0]), .client (.call_kind 0), .client (.call_reg_ok 0), .client (.call_reg_err 0),
    .client (.call_send 0), .client .out_poll, .client .out_recv, .host_packet, .dev_read, .client (.out_done true), .client .out_yield,
    .flush, .dev_write .ok, .client .in_poll, .client (.in_recv (some [0x20, 0xE0, 0, 0, 0, 0, 5])), .client .in_lookup,
    .client (.in_wake (some ⟨0, true⟩)), .client .in_yield, .client (.call_err 0)]

set_option synthInstance.maxSize 1000 in
theorem exWbNoRoom_result : (u_run (exWb2 false) exWbNoRoom (UsbSys.new (wb_ctx 300 fun _ => false))).map (fun u => u.sys.client.calls.map (·.phase)) =
    some [.done (.ErrResp ⟨⟨.Key1 ⟨0xE0⟩, .Seq4 0⟩, [5]⟩ 0)] := by decide +kernel

theorem exWbNoRoom_fails : wb_result (.start_accelerometer 100 .G2) (.ErrResp ⟨⟨.Key1 ⟨0xE0⟩, .Seq4 0⟩, [5]⟩ 0) = .comms := by decide +kernel

end PRpc.Props
