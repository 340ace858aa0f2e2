import Verif.Lemmas.WorkbookRun
/-! C89: the workbook example, from the methods of `WorkbookClient` to the LEDs of the board and back, over a USB cable. -/

namespace PRpc.Props

open Spec

variable {E : Type}

/-- C89: the calls of such a program are those of methods. -/
theorem c89_made (I : WbIcd) (U : UsbCfg WbVal E Unit WbCtx) (hU : UsbSound U) (henc : ∀ v, U.S.enc (.val v) = enc_wb v)
    (hsize : ∀ b, (∀ v, b ≠ .val v) → (U.S.enc b).length ≤ 1000) {ls : List (ULabel WbVal)} {c0 : WbCtx} {u : UsbSys WbVal E Unit WbCtx}
    (hu : ∀ l ∈ ls, WbUses I l) (hrun : u_run U ls (UsbSys.new c0) = some u) : ∃ ms, Made I u.sys ms := by
  obtain ⟨_, ls', hr, hst⟩ := sim_run hU.buffer hU.some_buffer (usbInv_new U.S c0) (wb_small henc hsize u.sys) hrun
  obtain ⟨ms, h⟩ := made_of (sys_run_methods (I := I) (s' := u.abs) hr (fun l' hl' => by
    obtain ⟨l, hl, h⟩ := hst l' hl'
    exact ⟨l, h, hu l hl⟩) (fun c cl h => by simp [UsbSys.abs, UsbSys.new, Sys.new, Client.new] at h))
  exact ⟨ms, h.len, h.call⟩

/-- C89: the calls the board has been asked for form an order in which everything fits together: the LED driver has been given what these methods,
one after the other, make of a dark board; whatever a method returned, other than an error of the communication, is what it
returns on a board in the state the methods before it leave, a task having been started with the arguments of
`start_accelerometer` if it is that; and a method called after another one has returned comes after it. -/
theorem c89_board (I : WbIcd) (U : UsbCfg WbVal E Unit WbCtx) (hU : UsbSound U) (hD : define_dispatch (wb_app E I) = .ok U.S.disp)
    (hkk : U.S.kkind = U.S.disp.n) (ha : WbApart I (keyLen U.S.disp.n)) (henc : ∀ v, U.S.enc (.val v) = enc_wb v)
    (hsize : ∀ b, (∀ v, b ≠ .val v) → (U.S.enc b).length ≤ 1000)
    {ls : List (ULabel WbVal)} {id : BitVec 64} {held : Nat → Bool} {u : UsbSys WbVal E Unit WbCtx}
    (hu : ∀ l ∈ ls, WbUses I l) (hrun : u_run U ls (UsbSys.new (wb_ctx id held)) = some u) (hlen : u.sys.client.calls.length < 2 ^ 32)
    {ms : List WbMethod} (hm : Made I u.sys ms) :
    ∃ order : List Nat, order.Nodup ∧ (∀ c ∈ order, c < u.sys.client.calls.length) ∧
      Shows u.sys.srv.ctx (boardAfter ms (Board.dark id held) order) ∧
      (∀ (c : Nat) (cl : Call) (m : WbMethod) (r : CallRes), u.sys.client.calls[c]? = some cl → ms[c]? = some m → cl.phase = .done r →
        wb_result m r ≠ .comms → ∃ pre post, order = pre ++ c :: post ∧ (boardAfter ms (Board.dark id held) pre).Answer m (wb_result m r) ∧
          ∀ interval_ms range, m = .start_accelerometer interval_ms range →
            ∃ x ∈ u.sys.tasks, x.2.role = .endpoint ∧ x.2.hdr.seq_no = cl.rqst.header.seq_no ∧ x.2.arg = .start ⟨interval_ms, range⟩) ∧
      (∀ (ls1 ls2 : List (ULabel WbVal)) (u1 : UsbSys WbVal E Unit WbCtx) (c c' : Nat) (cl : Call) (m : WbMethod) (r : CallRes),
        ls = ls1 ++ ls2 → u_run U ls1 (UsbSys.new (wb_ctx id held)) = some u1 → u1.sys.client.calls[c]? = some cl →
        ms[c]? = some m → cl.phase = .done r → wb_result m r ≠ .comms → u1.sys.client.calls.length ≤ c' → c' ∈ order → Before order c c') := by
  have hsm := wb_small henc hsize u.sys
  have hu' : ∀ l ∈ ls, UsbUsed (wb_full E I) l := fun l hl => wb_used (hu l hl)
  have hDi := wb_dispatches hD ha
  have hdecl := wb_declared E I U.S.kkind
  obtain ⟨_, ls', hr, hst⟩ := sim_run hU.buffer hU.some_buffer (usbInv_new U.S (wb_ctx id held)) hsm hrun
  have inv := sys_run_inv hr (fun l' hl' => by
    obtain ⟨l, hl, h⟩ := hst l' hl'
    exact stands_used h (hu' l hl)) (sysInv_new (wb_full E I) U.S (wb_ctx id held))
  have cinv := sys_run_ctxInv hr (ctxInv_new (wb_ctx id held) U.S)
  have hold : u.abs.old = 0 := sys_run_new_old hr
  have hm' : Made I u.abs ms := ⟨hm.len, hm.call⟩
  have hlen' : u.abs.client.calls.length < 2 ^ 32 := hlen
  refine ⟨orderTo U.S.disp u.abs u.abs.taken, orderTo_nodup hDi inv hlen' _, fun c hc => ?_, ?_, ?_, ?_⟩
  · obtain ⟨j, _, e⟩ := orderTo_mem hc
    obtain ⟨cl, _, _, _, h, _⟩ := (callAt_some e).1.asked
    exact getElem?_lt h
  · obtain ⟨ctx, e, h⟩ := board_at hD hkk ha inv cinv hlen' hm' (Nat.le_refl _)
    have : ctx = u.sys.srv.ctx := by
      unfold contexts at e
      rw [← cinv.len, List.getElem?_append_right (Nat.le_refl _), Nat.sub_self] at e
      exact (Option.some.inj e).symm
    rw [← this]
    exact h
  · intro c cl m r hc hmc hres hne
    obtain ⟨f, i, rfl⟩ := wb_result_resp hne
    obtain ⟨o, ho, j, hdr, req, h1, h2, h3, h4⟩ := board_reply hD hkk ha inv hold hlen' (s := u.abs) hc hres
    obtain ⟨b, hb, hf⟩ := h2.sent
    obtain ⟨hj, hh⟩ := reply_handled cinv ho h4
    have hcall := callAt_eq inv hlen' (reply_asked h2 h3 h4) hh
    obtain ⟨post, e⟩ := orderTo_at hj hcall
    obtain ⟨ctx, hctx, hshow⟩ := board_at hD hkk ha inv cinv hlen' hm' (Nat.le_of_lt hj)
    have hap := reply_applied cinv hb hf ho h4
    obtain ⟨k1, k2, k3⟩ := hm.call c cl m hc hmc
    have hreq : req = m.req I := VarKey.Key8.inj (h3.symm.trans k1)
    rw [k3] at hap
    have hrx : rxShort U.S.disp hdr = short (keyLen U.S.disp.n) (m.req I) := ?_
    · refine ⟨_, post, e, method_answer hD ha henc hrx hap hctx hshow h1.begins.2 hne, ?_⟩
      rintro interval_ms range rfl
      obtain ⟨n, t, t1, t2, t3, t4⟩ := method_started hD ha hrx hap
      exact ⟨_, List.mem_iff_getElem?.mpr ⟨n, t1⟩, t2, by rw [t3]; exact h2.seq, t4⟩
    obtain ⟨cl', b', hdr', req', g1, g2, g3, g4, g5, g6, g7⟩ := (reply_asked h2 h3 h4).asked
    have e1 : b' = b := Option.some.inj (g2.symm.trans hb)
    have e2 : cl' = cl := Option.some.inj (g1.symm.trans hc)
    rw [e1, e2] at g3
    rw [e2] at g5
    obtain ⟨e3, _⟩ := isFrame_unique hf g3
    rw [e3, g7, ← hreq]
    exact congrArg _ (VarKey.Key8.inj (g5.symm.trans h3))
  · rintro ls1 ls2 u1 c c' cl m r rfl hrun1 hc hmc hres hne hc' hmem
    obtain ⟨f, i, rfl⟩ := wb_result_resp hne
    have hrun2 := u_run_split hrun hrun1
    obtain ⟨uinv, la, hra, hsta⟩ := sim_run hU.buffer hU.some_buffer (usbInv_new U.S (wb_ctx id held)) (wb_small henc hsize u1.sys) hrun1
    obtain ⟨_, lb, hrb, hstb⟩ := sim_run hU.buffer hU.some_buffer uinv hsm hrun2
    have inv1 := sys_run_inv hra (fun l' hl' => by
      obtain ⟨l, hl, h⟩ := hsta l' hl'
      exact stands_used h (hu' l (List.mem_append_left _ hl))) (sysInv_new (wb_full E I) U.S (wb_ctx id held))
    have cinv1 := sys_run_ctxInv hra (ctxInv_new (wb_ctx id held) U.S)
    have hl := sys_run_later hrb
    have hle : u1.abs.client.calls.length ≤ u.abs.client.calls.length := later_calls hl
    obtain ⟨o, ho, j, hdr, req, h1, h2, h3, h4⟩ := board_reply hD hkk ha inv1 (sys_run_new_old hra) (Nat.lt_of_le_of_lt hle hlen')
      (s := u1.abs) hc hres
    have hask := asked_later hl (reply_asked h2 h3 h4)
    obtain ⟨cl2, hc2, hsig⟩ := hl.calls c cl hc
    obtain ⟨j', hj', hcall'⟩ := orderTo_mem hmem
    have hafter := asked_after hDi hdecl inv1 inv hlen' hl hc' (callAt_some hcall').1
    obtain ⟨b, hb, _⟩ := h2.sent
    have hjt := getElem?_lt hb
    have hjj : j < j' := Nat.lt_of_lt_of_le hjt hafter
    obtain ⟨_, hh⟩ := reply_handled cinv1 ho h4
    exact orderTo_before hjj hj' (callAt_eq inv hlen' hask (handled_later hrb hh)) hcall'

/-! ### A concrete board -/

def exIcd : WbIcd where
  std := exStd
  req := fun | .ping => exKey 0x11 | .unique_id => exKey 0x12 | .set_one => exKey 0x13 | .set_all => exKey 0x14 | .start => exKey 0x15 | .stop => exKey 0x16
  resp := fun | .ping => exKey 0xB1 | .unique_id => exKey 0xB2 | .set_one => exKey 0xB3 | .set_all => exKey 0xB4 | .start => exKey 0xB5 | .stop => exKey 0xB6
  path := fun _ => []
  accel := ⟨[], exKey 0xA1⟩
  schema_topic_path := []
  logging_path := []
  ep_types := []
  in_types := []
  out_types := []

def exWbDisp : Dispatcher WbVal WireTxErrorKind Unit WbCtx where
  std := exStd
  n := .Key1
  eps := (wb_app WireTxErrorKind exIcd).eps
  tps := []
  ping_decode := fun b => (from_bytes take_u32 b).map .u32
  spawn_ctxt := fun c => ((), c)
  device_map := ⟨[], exIcd.endpoint_list.endpoints, [], exIcd.topics_out_list.topics, .Key1⟩

theorem exWb_ok : define_dispatch (wb_app WireTxErrorKind exIcd) = .ok exWbDisp := by
  have h : needed_sz (wb_app WireTxErrorKind exIcd).sizer = .ok 1 := by decide +kernel
  unfold define_dispatch
  rw [h]
  simp only [Exec.ok_bind, kind_of_sz, if_true, merge_types_eq]
  rfl

/-- The bytes of what is sent; those of the standard messages do not matter here. -/
def exWbEnc : Body WbVal → Bytes
  | .val v => enc_wb v
  | _ => [0]

def exWb : UsbCfg WbVal WireTxErrorKind Unit WbCtx :=
  ⟨⟨⟨.Seq4, exKey 0xE0#8, 8, false⟩, exWbDisp, .Key1, ⟨fun _ _ => none, fun _ _ => true, true⟩, id, exWbEnc, fun _ _ => 0⟩, 1024, false, 1⟩

/-- A call of a method, from its request to its reply with the bytes `b`. -/
def wbCall (c : Nat) (m : WbMethod) (b : Bytes) : List (ULabel WbVal) :=
  [.client (.call_begin (m.req exIcd) (m.resp exIcd) m.body), .client (.call_kind c), .client (.call_reg_ok c), .client (.call_reg_err c),
    .client (.call_send c), .client .out_poll, .client .out_recv, .host_packet, .dev_read, .client (.out_done true), .client .out_yield,
    .flush, .dev_write .ok, .client .in_poll, .client (.in_recv (some b)), .client .in_lookup, .client (.in_wake (some ⟨c, false⟩)),
    .client .in_yield, .client (.call_ok c)]

def exWbMethods : List WbMethod := [.set_rgb_single 3 10 20 30, .set_rgb_single 24 1 1 1, .get_id]

/-- LED 3 is set, LED 24 is asked for, which is none, and the board is asked for its number, which is 300. -/
def exWbRun : List (ULabel WbVal) :=
  wbCall 0 (.set_rgb_single 3 10 20 30) [0x20, 0xB3, 0, 0, 0, 0, 0] ++
  wbCall 1 (.set_rgb_single 24 1 1 1) [0x20, 0xB3, 1, 0, 0, 0, 1] ++ wbCall 2 .get_id [0x20, 0xB2, 2, 0, 0, 0, 0xAC, 0x02]

set_option synthInstance.maxSize 1000 in
theorem exWbRun_result : (u_run exWb exWbRun (UsbSys.new (wb_ctx 300 fun _ => false))).map (fun u =>
      (u.sys.client.calls.map fun cl => (cl.rqst, cl.resp_key), u.sys.client.calls.map (·.phase), u.sys.srv.ctx.fw.shown.toList)) =
    some ([(⟨⟨.Key8 (exKey 0x13), .Seq4 0⟩, [3, 10, 20, 30]⟩, exKey 0xB3), (⟨⟨.Key8 (exKey 0x13), .Seq4 1⟩, [24, 1, 1, 1]⟩, exKey 0xB3),
        (⟨⟨.Key8 (exKey 0x12), .Seq4 2⟩, []⟩, exKey 0xB2)],
      [.done (.Resp ⟨⟨.Key1 ⟨0xB3⟩, .Seq4 0⟩, [0]⟩ 0), .done (.Resp ⟨⟨.Key1 ⟨0xB3⟩, .Seq4 1⟩, [1]⟩ 1),
        .done (.Resp ⟨⟨.Key1 ⟨0xB2⟩, .Seq4 2⟩, [0xAC, 0x02]⟩ 2)],
      [⟨0, 0, 0⟩, ⟨0, 0, 0⟩, ⟨0, 0, 0⟩, ⟨10, 20, 30⟩] ++ List.replicate 20 ⟨0, 0, 0⟩) := by decide +kernel

/-- What the three methods return. -/
theorem exWb_returns : wb_result (.set_rgb_single 3 10 20 30) (.Resp ⟨⟨.Key1 ⟨0xB3⟩, .Seq4 0⟩, [0]⟩ 0) = .unit ∧
    wb_result (.set_rgb_single 24 1 1 1) (.Resp ⟨⟨.Key1 ⟨0xB3⟩, .Seq4 1⟩, [1]⟩ 1) = .bad_position ∧
    wb_result .get_id (.Resp ⟨⟨.Key1 ⟨0xB2⟩, .Seq4 2⟩, [0xAC, 0x02]⟩ 2) = .id 300 := by decide +kernel

theorem exWb_uses : ∀ l ∈ exWbRun, WbUses exIcd l := by
  intro l hl
  simp only [exWbRun, wbCall, List.mem_append, List.mem_cons, List.not_mem_nil, or_false] at hl
  rcases hl with (h | h) | h
  all_goals
    rcases h with rfl | rfl | rfl | rfl | rfl | rfl | rfl | rfl | rfl | rfl | rfl | rfl | rfl | rfl | rfl | rfl | rfl | rfl | rfl
    all_goals first
      | trivial
      | exact ⟨_, rfl, rfl, rfl⟩

/-- The theorems apply to this run. -/
example : UsbSound exWb ∧ define_dispatch (wb_app WireTxErrorKind exIcd) = .ok exWb.S.disp ∧ exWb.S.kkind = exWb.S.disp.n ∧
    WbApart exIcd (keyLen exWb.S.disp.n) ∧ (∀ v, exWb.S.enc (.val v) = enc_wb v) ∧
    (∀ b, (∀ v, b ≠ .val v) → (exWb.S.enc b).length ≤ 1000) ∧ (∀ l ∈ exWbRun, WbUses exIcd l) ∧
    ∃ u, u_run exWb exWbRun (UsbSys.new (wb_ctx 300 fun _ => false)) = some u ∧ u.sys.client.calls.length < 2 ^ 32 ∧
      Made exIcd u.sys exWbMethods ∧
      (∃ cl r, u.sys.client.calls[0]? = some cl ∧ cl.phase = .done r ∧ wb_result (.set_rgb_single 3 10 20 30) r = .unit) ∧
      (∃ cl r, u.sys.client.calls[1]? = some cl ∧ cl.phase = .done r ∧ wb_result (.set_rgb_single 24 1 1 1) r = .bad_position) ∧
      (∃ cl r, u.sys.client.calls[2]? = some cl ∧ cl.phase = .done r ∧ wb_result .get_id r = .id 300) := by
  refine ⟨⟨⟨16, rfl⟩, by decide, by decide⟩, exWb_ok, rfl, ⟨distinct_of_nodup (by decide), distinct_of_nodup (by decide)⟩, fun _ => rfl, fun b hb => ?_, exWb_uses, ?_⟩
  · cases b with
    | val v => exact absurd rfl (hb v)
    | _ => exact Nat.le_of_ble_eq_true rfl
  obtain ⟨u, e1, e2⟩ := Option.map_eq_some_iff.mp exWbRun_result
  simp only [Prod.mk.injEq] at e2
  obtain ⟨h1, h2, h3⟩ := e2
  have hl : u.sys.client.calls.length = 3 := by simpa using congrArg List.length h1
  have call : ∀ (c : Nat) x, (u.sys.client.calls.map fun cl => cl.phase)[c]? = some x → ∃ cl, u.sys.client.calls[c]? = some cl ∧ cl.phase = x := by
    intro c x h
    rw [List.getElem?_map] at h
    exact Option.map_eq_some_iff.mp h
  refine ⟨u, e1, by omega, ⟨by rw [hl]; rfl, fun c cl m hc hm => ?_⟩, ?_, ?_, ?_⟩
  · have hx : (u.sys.client.calls.map fun cl => (cl.rqst, cl.resp_key))[c]? = some (cl.rqst, cl.resp_key) := by
      rw [List.getElem?_map, hc]; rfl
    rw [h1] at hx
    match c, hx, hm with
    | 0, hx, hm => cases hm; simp only [List.getElem?_cons_zero, Option.some.injEq, Prod.mk.injEq] at hx; rw [← hx.1, ← hx.2]; decide
    | 1, hx, hm => cases hm; simp only [List.getElem?_cons_succ, List.getElem?_cons_zero, Option.some.injEq, Prod.mk.injEq] at hx; rw [← hx.1, ← hx.2]; decide
    | 2, hx, hm => cases hm; simp only [List.getElem?_cons_succ, List.getElem?_cons_zero, Option.some.injEq, Prod.mk.injEq] at hx; rw [← hx.1, ← hx.2]; decide
    | n + 3, hx, hm => simp [exWbMethods] at hm
  · obtain ⟨cl, c1, c2⟩ := call 0 _ (by rw [h2]; rfl)
    exact ⟨cl, _, c1, c2, exWb_returns.1⟩
  · obtain ⟨cl, c1, c2⟩ := call 1 _ (by rw [h2]; rfl)
    exact ⟨cl, _, c1, c2, exWb_returns.2.1⟩
  · obtain ⟨cl, c1, c2⟩ := call 2 _ (by rw [h2]; rfl)
    exact ⟨cl, _, c1, c2, exWb_returns.2.2⟩

end PRpc.Props
