import Verif.Lemmas.ListenOwn
import Verif.Props.WorkbookLive
/-! `accel listen` of the workbook example from end to end: C101. -/

namespace PRpc.Props

open Spec

variable {E : Type}

/-! ### A session -/

/-- Steps of the rest of the system. -/
def lsSys (ls : List (ULabel WbVal)) : List LsLabel := ls.map .sys

/-- A call up to its request's arrival at the board. -/
def lsAsk (c : Nat) (m : WbMethod) : List LsLabel := lsSys
  [.client (.call_begin (m.req exIcd) (m.resp exIcd) m.body), .client (.call_kind c), .client (.call_reg_ok c), .client (.call_reg_err c),
    .client (.call_send c), .client .out_poll, .client .out_recv, .host_packet, .dev_read, .client (.out_done true), .client .out_yield]

/-- The reply `b` arrives and the call returns. -/
def lsAnswer (c : Nat) (b : Bytes) : List LsLabel := lsSys
  [.client .in_poll, .client (.in_recv (some b)), .client .in_lookup, .client (.in_wake (some ⟨c, false⟩)), .client .in_yield,
    .client (.call_ok c)] ++ [.returned]

/-- A call that the dispatcher answers with `b`. -/
def lsCall (c : Nat) (m : WbMethod) (b : Bytes) : List LsLabel := lsAsk c m ++ lsSys [.flush, .dev_write .ok] ++ lsAnswer c b

/-- The program says hello. -/
def lsHello : List LsLabel :=
  lsCall 0 (.ping 42) [0x20, 1, 0, 0, 0, 0, 42] ++ lsCall 1 .get_id [0x20, 0xB2, 1, 0, 0, 0, 0xAC, 0x02]

/-- A start. -/
def lsStart (c : Byte) (m : WbMethod) : List LsLabel :=
  lsAsk c.toNat m ++ [.acc .acc_run, .reply, .sys (.dev_write .ok), .sent] ++ lsAnswer c.toNat [0x20, 0xB5, c, 0, 0, 0] ++ [.acc (.acc_ranged true)]

/-- A reading is taken and sent. -/
def lsRead (n : Byte) (x : BitVec 16) : List LsLabel :=
  [.acc .acc_tick, .acc (.acc_sampled (some ⟨x, 0, 0⟩)), .publish, .sys (.dev_write .ok), .sent] ++
    lsSys [.client .in_poll, .client (.in_recv (some ([0x00, 0xA1, n] ++ enc_accel ⟨x, 0, 0⟩))), .client .in_lookup, .client .in_yield]

/-- `accel listen`: two readings are shown, and it waits for more. -/
def exAccel : List LsLabel :=
  lsStart 2 (.start_accelerometer 10 .G2) ++ lsRead 0 5 ++ [.clock 5, .received] ++ lsRead 1 6 ++ [.clock 6, .received, .clock 7]

/-- Up to the subscription. -/
def exAccelLine : List LsLabel := lsHello ++ [.line "accel listen 10 2 1000\n".toList]

/-- `accel listen` that does not look while nine readings arrive. -/
def exAccelLag : List LsLabel := lsStart 2 (.start_accelerometer 10 .G2) ++ lsRead 0 5 ++ lsRead 1 6 ++ lsRead 2 7 ++ lsRead 3 8 ++ lsRead 4 9 ++
  lsRead 5 10 ++ lsRead 6 11 ++ lsRead 7 12 ++ lsRead 8 13 ++ [.clock 5]

/-- A stream is started, and stopped: the task has been told to, and has not yet looked. -/
def exAccelOld : List LsLabel := lsHello ++ [.line "accel start 10 2\n".toList] ++ lsStart 2 (.start_accelerometer 10 .G2) ++
  [.line "accel stop\n".toList] ++ lsCall 3 .stop_accelerometer [0x20, 0xB6, 3, 0, 0, 0, 1] ++ [.line "accel listen 20 4 1000\n".toList]

/-- Its last reading arrives once the program has subscribed. -/
def exAccelNew : List LsLabel := lsRead 0 5 ++ lsStart 4 (.start_accelerometer 20 .G4) ++ [.clock 5, .received]

abbrev exLsRun (busy : Bool) (ls : List LsLabel) : Option (LsSys WireTxErrorKind) := ls_run exIcd exWb ls (LsSys.start 300 fun _ => busy)

/-- What of the program's state is looked at. -/
def lsPc : ReplPc → Option (BitVec 32) × Bool
  | .receiving dur => (some dur, false)
  | .panicked => (none, true)
  | _ => (none, false)

theorem lsPc_receiving {pc : ReplPc} {dur : BitVec 32} (h : lsPc pc = (some dur, false)) : pc = .receiving dur := by
  cases pc with
  | receiving d => simp only [lsPc, Prod.mk.injEq, Option.some.injEq, and_true] at h; rw [h]
  | _ => cases h

theorem lsPc_panicked {pc : ReplPc} (h : lsPc pc = (none, true)) : pc = .panicked := by
  cases pc with
  | panicked => rfl
  | _ => cases h

/-- Nothing is left to do. -/
def lsCaughtUp (u : UsbSys WbVal WireTxErrorKind Unit WbCtx) : Bool :=
  u.sys.air.all (·.isEmpty) && u.sending.isNone && u.cur.isEmpty && decide (u.sys.client.in_pc = .recv)

theorem lsCaughtUp_ok {u : UsbSys WbVal WireTxErrorKind Unit WbCtx} (h : lsCaughtUp u = true) : UsbCaughtUp u := by
  simp only [lsCaughtUp, Bool.and_eq_true, decide_eq_true_eq, List.all_eq_true, List.isEmpty_iff, Option.isNone_iff_eq_none] at h
  obtain ⟨⟨⟨h1, h2⟩, h3⟩, h4⟩ := h
  exact ⟨h1, ⟨h2, h3⟩, by rw [h4]; nofun, by rw [h4]; exact ⟨nofun, nofun⟩⟩

/-- A run that subscribes, at three moments: before it subscribes, after, and at its end. -/
def exLsTurn {α : Type} (busy : Bool) (ls1 ls2 : List LsLabel) (f : LsSys WireTxErrorKind → LsSys WireTxErrorKind → LsSys WireTxErrorKind → α) :
    Option α :=
  (exLsRun busy ls1).bind fun y1 => (ls_step exIcd exWb y1 .subscribed).bind fun y2 => (ls_run exIcd exWb ls2 y2).map fun y => f y1 y2 y

theorem exLsTurn_some {α : Type} {busy : Bool} {ls1 ls2 : List LsLabel} {f : LsSys WireTxErrorKind → LsSys WireTxErrorKind → LsSys WireTxErrorKind → α}
    {a : α} (h : exLsTurn busy ls1 ls2 f = some a) : ∃ y1 y2 y, exLsRun busy ls1 = some y1 ∧ ls_step exIcd exWb y1 .subscribed = some y2 ∧
      ls_run exIcd exWb ls2 y2 = some y ∧ f y1 y2 y = a := by
  obtain ⟨y1, h1, h⟩ := Option.bind_eq_some_iff.mp h
  obtain ⟨y2, h2, h⟩ := Option.bind_eq_some_iff.mp h
  obtain ⟨y, h3, h⟩ := Option.map_eq_some_iff.mp h
  exact ⟨y1, y2, y, h1, h2, h3, h⟩

theorem exWb_size : ∀ b, (∀ v, b ≠ .val v) → (exWb.S.enc b).length ≤ 1000 := by
  intro b hb
  cases b with
  | val v => exact absurd rfl (hb v)
  | _ => exact Nat.le_of_ble_eq_true rfl

theorem exWb_sound : UsbSound exWb := ⟨⟨16, rfl⟩, by decide, by decide⟩

set_option synthInstance.maxSize 1000 in
theorem exAccel_result : exLsTurn false exAccelLine exAccel (fun y1 y2 y => (lsCaughtUp y1.repl.usb, y2.sub, sensed exIcd exWb exAccel y2,
      latest y.repl.term, lsPc y.repl.pc, (multi_recv y.repl.usb.sys.client.subs 0).1.isNone, lsCaughtUp y.repl.usb)) =
    some (true, some 0, [⟨⟨10, .G2⟩, ⟨5, 0, 0⟩, true⟩, ⟨⟨10, .G2⟩, ⟨6, 0, 0⟩, true⟩], [⟨5, 0, 0⟩, ⟨6, 0, 0⟩],
      (some 1000, false), true, true) := by decide +kernel

theorem exAccel_quiet : ∀ l ∈ exAccel, LsLabel.isLine l = false := by decide +kernel

/-! ### What is shown was measured -/

/-- C101: the accelerations that `accel listen` has shown since the line was typed are readings that the firmware has published, in the order in
which it has, and between the first and the last of them none is missing whose `publish` returned `Ok`.  Which those are, `c101_turn` says. -/
theorem c101_shown (I : WbIcd) (U : UsbCfg WbVal E Unit WbCtx) (hU : UsbSound U) (hD : define_dispatch (wb_app E I) = .ok U.S.disp)
    (hkk : U.S.kkind = U.S.disp.n) (ha : WbApart I (keyLen U.S.disp.n)) (henc : ∀ v, U.S.enc (.val v) = enc_wb v)
    (hsize : ∀ b, (∀ v, b ≠ .val v) → (U.S.enc b).length ≤ 1000) {uid : BitVec 64} {held : Nat → Bool} {ls : List LsLabel} {y : LsSys E}
    (hrun : ls_run I U ls (LsSys.start uid held) = some y) :
    ∃ qs, qs <:+: sensed I U ls (LsSys.start uid held) ∧ ShownOf U.S (latest y.repl.term) qs := by
  have S : WbSetup I U := ⟨hU, hD, hkk, ha, henc, hsize⟩
  rcases ls_turns S hrun with ⟨h, _⟩ | ⟨ls1, y1, y2, ls2, i, rfl, t, hr, hl⟩
  · rw [h]
    exact ⟨[], List.nil_infix, List.Sublist.refl _, List.Sublist.refl _, fun _ => rfl⟩
  · obtain ⟨⟨late, ⟨pre, h1⟩, _, qs, ⟨post, h2⟩, h3⟩, _⟩ := turn_run S t hr hl
    refine ⟨qs, ⟨pre, post, ?_⟩, h3⟩
    rw [sensed_sub t.before t.sub, ← h1, List.append_assoc, List.append_assoc, h2]

/-- The hypotheses of the theorems hold for the session above, in which two readings are published and shown. -/
example : UsbSound exWb ∧ define_dispatch (wb_app WireTxErrorKind exIcd) = .ok exWb.S.disp ∧ exWb.S.kkind = exWb.S.disp.n ∧
    WbApart exIcd (keyLen exWb.S.disp.n) ∧ (∀ v, exWb.S.enc (.val v) = enc_wb v) ∧ (∀ b, (∀ v, b ≠ .val v) → (exWb.S.enc b).length ≤ 1000) ∧
    ∃ y, exLsRun false (exAccelLine ++ .subscribed :: exAccel) = some y ∧ latest y.repl.term = [⟨5, 0, 0⟩, ⟨6, 0, 0⟩] ∧
      ∃ qs, qs <:+: sensed exIcd exWb (exAccelLine ++ .subscribed :: exAccel) (LsSys.start 300 fun _ => false) ∧
        ShownOf exWb.S [⟨5, 0, 0⟩, ⟨6, 0, 0⟩] qs := by
  refine ⟨exWb_sound, exWb_ok, rfl, exWb_apart, fun _ => rfl, exWb_size, ?_⟩
  obtain ⟨y1, y2, y, h1, h2, h3, h⟩ := exLsTurn_some exAccel_result
  simp only [Prod.mk.injEq] at h
  obtain ⟨_, _, _, g4, _⟩ := h
  have hr : exLsRun false (exAccelLine ++ .subscribed :: exAccel) = some y := by
    exact ls_run_append h1 (by simp only [ls_run, h2]; exact h3)
  have := c101_shown exIcd exWb exWb_sound exWb_ok rfl exWb_apart (fun _ => rfl) exWb_size hr
  rw [g4] at this
  exact ⟨y, hr, g4, this⟩

/-- C101: one `accel listen`, which subscribes in the step from `y1` to `y2`; what it has shown by `y`, before another line is typed, is an initial
part of what was still on its way when it subscribed, followed by what has been published since.  Nothing was on its way, except
perhaps readings whose `publish` failed, if client, cable and board had nothing left to do. -/
theorem c101_turn (I : WbIcd) (U : UsbCfg WbVal E Unit WbCtx) (hU : UsbSound U) (hD : define_dispatch (wb_app E I) = .ok U.S.disp)
    (hkk : U.S.kkind = U.S.disp.n) (ha : WbApart I (keyLen U.S.disp.n)) (henc : ∀ v, U.S.enc (.val v) = enc_wb v)
    (hsize : ∀ b, (∀ v, b ≠ .val v) → (U.S.enc b).length ≤ 1000) {uid : BitVec 64} {held : Nat → Bool} {ls1 ls2 : List LsLabel}
    {y1 y2 y : LsSys E} {id : Nat} (h1 : ls_run I U ls1 (LsSys.start uid held) = some y1) (h2 : ls_step I U y1 .subscribed = some y2)
    (hid : y2.sub = some id) (h3 : ls_run I U ls2 y2 = some y) (hl : ∀ l ∈ ls2, LsLabel.isLine l = false) :
    ∃ late, late <:+ sensed I U ls1 (LsSys.start uid held) ∧ (UsbCaughtUp y1.repl.usb → ∀ s ∈ late, s.ok = false) ∧
      ∃ qs, qs <+: late ++ sensed I U ls2 y2 ∧ ShownOf U.S (latest y.repl.term) qs := by
  have S : WbSetup I U := ⟨hU, hD, hkk, ha, henc, hsize⟩
  exact (turn_run S (turn_of S h1 h2 hid) h3 hl).1

/-- C101: and once it waits for the next reading, and client, cable and board have nothing left to do, it has shown all of them. -/
theorem c101_complete (I : WbIcd) (U : UsbCfg WbVal E Unit WbCtx) (hU : UsbSound U) (hD : define_dispatch (wb_app E I) = .ok U.S.disp)
    (hkk : U.S.kkind = U.S.disp.n) (ha : WbApart I (keyLen U.S.disp.n)) (henc : ∀ v, U.S.enc (.val v) = enc_wb v)
    (hsize : ∀ b, (∀ v, b ≠ .val v) → (U.S.enc b).length ≤ 1000) {uid : BitVec 64} {held : Nat → Bool} {ls1 ls2 : List LsLabel}
    {y1 y2 y : LsSys E} {id : Nat} (h1 : ls_run I U ls1 (LsSys.start uid held) = some y1) (h2 : ls_step I U y1 .subscribed = some y2)
    (hid : y2.sub = some id) (h3 : ls_run I U ls2 y2 = some y) (hl : ∀ l ∈ ls2, LsLabel.isLine l = false) {dur : BitVec 32}
    (hpc : y.repl.pc = .receiving dur) (hw : (multi_recv y.repl.usb.sys.client.subs id).1 = none) (hq : UsbCaughtUp y.repl.usb) :
    ∃ late, late <:+ sensed I U ls1 (LsSys.start uid held) ∧ (UsbCaughtUp y1.repl.usb → ∀ s ∈ late, s.ok = false) ∧
      ShownOf U.S (latest y.repl.term) (late ++ sensed I U ls2 y2) := by
  have S : WbSetup I U := ⟨hU, hD, hkk, ha, henc, hsize⟩
  have t := turn_of S h1 h2 hid
  obtain ⟨_, us, htr, hst | hst⟩ := turn_run S t h3 hl
  · exact turn_all S t htr hst hw hq
  · rcases hst with e | ⟨e, _⟩ <;> (rw [hpc] at e; cases e)

/-- In that session nothing is left to do before it subscribes, and none is at its end, when it waits. -/
example : ∃ y1 y2 y, exLsRun false exAccelLine = some y1 ∧ ls_step exIcd exWb y1 .subscribed = some y2 ∧ y2.sub = some 0 ∧
    ls_run exIcd exWb exAccel y2 = some y ∧ (∀ l ∈ exAccel, LsLabel.isLine l = false) ∧ UsbCaughtUp y1.repl.usb ∧
    y.repl.pc = .receiving 1000 ∧ (multi_recv y.repl.usb.sys.client.subs 0).1 = none ∧ UsbCaughtUp y.repl.usb ∧
    (sensed exIcd exWb exAccel y2).map (·.val) = [⟨5, 0, 0⟩, ⟨6, 0, 0⟩] ∧ latest y.repl.term = [⟨5, 0, 0⟩, ⟨6, 0, 0⟩] := by
  obtain ⟨y1, y2, y, h1, h2, h3, h⟩ := exLsTurn_some exAccel_result
  simp only [Prod.mk.injEq, Option.isNone_iff_eq_none] at h
  obtain ⟨g1, g2, g3, g4, g5, g6, g7⟩ := h
  exact ⟨y1, y2, y, h1, h2, g2, h3, exAccel_quiet, lsCaughtUp_ok g1, lsPc_receiving g5, g6, lsCaughtUp_ok g7, by rw [g3]; rfl, g4⟩

/-- C101: and what is published are the readings of the sensor, in their order, each once: all that the sensor has given have been published,
except the last if the firmware is just about to. -/
theorem c101_sensor (I : WbIcd) (U : UsbCfg WbVal E Unit WbCtx) {uid : BitVec 64} {held : Nat → Bool} {ls : List LsLabel} {y : LsSys E}
    (hrun : ls_run I U ls (LsSys.start uid held) = some y) :
    ∃ rest, rest.length ≤ 1 ∧ measured ls = (sensed I U ls (LsSys.start uid held)).map (·.val) ++ rest :=
  ⟨_, unsent_le y, (sensor_run hrun).2⟩

/-- In that session the sensor gives two readings. -/
example : (exLsRun false (exAccelLine ++ .subscribed :: exAccel)).isSome = true ∧
    measured (exAccelLine ++ .subscribed :: exAccel) = [⟨5, 0, 0⟩, ⟨6, 0, 0⟩] := by decide +kernel

/-! ### When the program dies of it -/

/-- C101, the full statement about the `unwrap` of line 77: that `accel listen` only dies while receiving if the client's receive worker is
ending or has ended. -/
def C101PanicFull (I : WbIcd) (U : UsbCfg WbVal E Unit WbCtx) : Prop :=
  ∀ (uid : BitVec 64) (held : Nat → Bool) (ls : List LsLabel) (y y' : LsSys E), ls_run I U ls (LsSys.start uid held) = some y →
    ls_step I U y .received = some y' → y'.repl.pc = .panicked →
    y'.repl.usb.sys.client.in_pc = .purge ∨ y'.repl.usb.sys.client.in_pc = .exited

set_option synthInstance.maxSize 1000 in
theorem exAccelLag_result : exLsTurn false exAccelLine exAccelLag (fun _ _ y => (ls_step exIcd exWb y .received).map fun y' =>
      (lsPc y'.repl.pc, decide (y'.repl.usb.sys.client.in_pc = .recv), y'.sub,
        y'.repl.usb.sys.client.subs.brxs[0]?.map fun r => (r.pending.length, r.lost))) =
    some (some ((none, true), true, some 0, some (8, 1))) := by decide +kernel

theorem exAccel_lags : ∃ y y', exLsRun false (exAccelLine ++ .subscribed :: exAccelLag) = some y ∧ ls_step exIcd exWb y .received = some y' ∧
    y'.repl.pc = .panicked ∧ y'.repl.usb.sys.client.in_pc = .recv ∧ y'.sub = some 0 ∧
    ∃ r, y'.repl.usb.sys.client.subs.brxs[0]? = some r ∧ r.pending.length = 8 ∧ r.lost = 1 := by
  obtain ⟨y1, y2, y, h1, h2, h3, h⟩ := exLsTurn_some exAccelLag_result
  obtain ⟨y', h4, h⟩ := Option.map_eq_some_iff.mp h
  simp only [Prod.mk.injEq, decide_eq_true_eq] at h
  obtain ⟨g1, g2, g3, g4⟩ := h
  obtain ⟨r, g4, g5⟩ := Option.map_eq_some_iff.mp g4
  simp only [Prod.mk.injEq] at g5
  refine ⟨y, y', ?_, h4, lsPc_panicked g1, g2, g3, r, g4, g5⟩
  exact ls_run_append h1 (by simp only [ls_run, h2]; exact h3)

/-- C101, the full statement about the `unwrap` is false: if nine readings arrive before the program looks, `recv` returns `Lagged`, and the program
dies of it, though the connection is as it was. -/
theorem c101_panics_false : ¬ C101PanicFull exIcd exWb := by
  intro h
  obtain ⟨y, y', h1, h2, h3, h4, _⟩ := exAccel_lags
  rcases h _ _ _ y y' h1 h2 h3 with e | e <;> (rw [h4] at e; cases e)

/-- C101 (partial): `accel listen` dies while receiving only if the client's receive worker is ending or has ended, or if it fell behind: then more
than eight readings were waiting for it, the newest eight of them still are, the others are lost.  Missing: the latter, in which
the connection is as it was, see `c101_panics_false`. -/
theorem c101_panics_partial (I : WbIcd) (U : UsbCfg WbVal E Unit WbCtx) (hU : UsbSound U) (hD : define_dispatch (wb_app E I) = .ok U.S.disp)
    (hkk : U.S.kkind = U.S.disp.n) (ha : WbApart I (keyLen U.S.disp.n)) (henc : ∀ v, U.S.enc (.val v) = enc_wb v)
    (hsize : ∀ b, (∀ v, b ≠ .val v) → (U.S.enc b).length ≤ 1000) {uid : BitVec 64} {held : Nat → Bool} {ls : List LsLabel} {y y' : LsSys E}
    (hrun : ls_run I U ls (LsSys.start uid held) = some y) (hs : ls_step I U y .received = some y') (hp : y'.repl.pc = .panicked) :
    (y'.repl.usb.sys.client.in_pc = .purge ∨ y'.repl.usb.sys.client.in_pc = .exited) ∨
    ∃ (id : Nat) (r : BRx), y'.sub = some id ∧ y'.repl.usb.sys.client.subs.brxs[id]? = some r ∧ r.pending.length = 8 ∧ 0 < r.lost := by
  have S : WbSetup I U := ⟨hU, hD, hkk, ha, henc, hsize⟩
  obtain ⟨vs, hm⟩ := ls_moves hs
  cases hm with
  | got => cases hp
  | skip dur id u f hq =>
    have hp : y.repl.pc = .panicked := hp
    rw [hq] at hp
    cases hp
  | lost dur id u res hq hsub hus hres hno =>
    rcases ls_turns S hrun with ⟨_, h⟩ | ⟨ls1, y1, y2, ls2, i, rfl, t, hr, hl⟩
    · rw [hsub] at h
      cases h
    · obtain ⟨_, us, htr, hst⟩ := turn_run S t hr hl
      rcases hst with hst | hst
      · have : i = id := Option.some.inj (hst.sub.symm.trans hsub)
        subst this
        obtain ⟨r, h1, h2, h3, h4, h5, h6⟩ := hst.healthy.here
        obtain ⟨c0, us1, hrun1, _, hu, hi, hused, hdecl⟩ := turn_setup S t htr
        obtain ⟨_, _, _, _, _, hall⟩ := usb_multi_of S.sound S.ctx (.first _) hrun1 hu htr.run hused (wb_small S.enc S.size _) (id := i) ⟨rfl, hi⟩
        have hns := (hall hdecl).1
        have hre : Reachable U.S.cfg y.repl.usb.sys.client := by
          have h := u_run_append hrun1 (by simp only [u_run, hu]; exact htr.run :
            u_run U (.client (.sub_multi I.accel.key 8) :: us) y1.repl.usb = some y.repl.usb)
          exact ⟨_, usb_client_run h⟩
        rcases u_step_client hus with ⟨k, e, hk⟩ | ⟨hn, _⟩
        · cases e
          simp only [step, Option.some.injEq] at hk
          cases res with
          | Ok f => exact absurd rfl (hno f)
          | IoClosed =>
            left
            have := c63_multi_ends_for_a_reason_partial hre h1 h2 hns hres
            show u.sys.client.in_pc = _ ∨ u.sys.client.in_pc = _
            rw [← hk]
            exact this
          | Lagged n =>
            right
            have hm : 0 < r.missed := by
              simp only [multi_recv, h1] at hres
              split at hres
              · rename_i h; exact h
              · split at hres
                · cases hres
                · split at hres <;> cases hres
            refine ⟨i, { r with missed := 0 }, hsub, ?_, h6 hm, by show 0 < r.lost; omega⟩
            show u.sys.client.subs.brxs[i]? = _
            rw [← hk]
            simp only [multi_recv, h1, if_pos hm]
            exact set_get_self h1 _
        · exact absurd rfl (hn _)
      · rcases hst with e | ⟨e, _⟩ <;> (rw [hq] at e; cases e)

/-- The program dies of nine readings: eight of them wait, and one is lost. -/
example : ∃ y y', exLsRun false (exAccelLine ++ .subscribed :: exAccelLag) = some y ∧ ls_step exIcd exWb y .received = some y' ∧
    y'.repl.pc = .panicked ∧ ∃ r, y'.repl.usb.sys.client.subs.brxs[0]? = some r ∧ r.pending.length = 8 ∧ r.lost = 1 := by
  obtain ⟨y, y', h1, h2, h3, _, _, h4⟩ := exAccel_lags
  exact ⟨y, y', h1, h2, h3, h4⟩

/-! ### Whose readings are shown -/

/-- C101, the full statement about whose readings are shown: that `accel listen` only shows readings of a stream with the interval and the range
that were typed. -/
def C101OwnFull (I : WbIcd) (U : UsbCfg WbVal E Unit WbCtx) : Prop :=
  ∀ (uid : BitVec 64) (held : Nat → Bool) (ls1 ls2 : List LsLabel) (y1 y2 y : LsSys E) (id : Nat) (ms : BitVec 32) (range : AccelRange)
    (dur : BitVec 32), ls_run I U ls1 (LsSys.start uid held) = some y1 → y1.repl.pc = .subscribing ms range dur →
    ls_step I U y1 .subscribed = some y2 → y2.sub = some id → ls_run I U ls2 y2 = some y → (∀ l ∈ ls2, LsLabel.isLine l = false) →
    (latest y.repl.term).Sublist
      (((sensed I U ls1 (LsSys.start uid held) ++ sensed I U ls2 y2).filter (fun s => s.rqst = ⟨ms, range⟩)).map (·.val))

/-- What is to be subscribed to. -/
def lsGoal : ReplPc → Option (BitVec 32 × AccelRange × BitVec 32)
  | .subscribing ms range dur => some (ms, range, dur)
  | _ => none

theorem lsGoal_some {pc : ReplPc} {ms : BitVec 32} {range : AccelRange} {dur : BitVec 32} (h : lsGoal pc = some (ms, range, dur)) :
    pc = .subscribing ms range dur := by
  cases pc with
  | subscribing a b c =>
    simp only [lsGoal, Option.some.injEq, Prod.mk.injEq] at h
    obtain ⟨rfl, rfl, rfl⟩ := h
    rfl
  | _ => cases h

set_option synthInstance.maxSize 1000 in
theorem exAccelOld_result : exLsTurn true exAccelOld exAccelNew (fun y1 y2 y => (lsGoal y1.repl.pc, lsCaughtUp y1.repl.usb, y2.sub,
      sensed exIcd exWb exAccelOld (LsSys.start 300 fun _ => true), sensed exIcd exWb exAccelNew y2, latest y.repl.term)) =
    some (some (20, .G4, 1000), true, some 0, [], [⟨⟨10, .G2⟩, ⟨5, 0, 0⟩, true⟩], [⟨5, 0, 0⟩]) := by decide +kernel

theorem exAccelNew_quiet : ∀ l ∈ exAccelNew, LsLabel.isLine l = false := by decide +kernel

/-- C101, the full statement about whose readings are shown is false: after `accel start 10 2` and `accel stop` the task that was told to stop may
still publish one, and an `accel listen 20 4 1000` typed meanwhile shows it as its own. -/
theorem c101_own_false : ¬ C101OwnFull exIcd exWb := by
  intro h
  obtain ⟨y1, y2, y, h1, h2, h3, g⟩ := exLsTurn_some exAccelOld_result
  simp only [Prod.mk.injEq] at g
  obtain ⟨g1, _, g2, g3, g4, g5⟩ := g
  have := h _ _ _ _ y1 y2 y _ _ _ _ h1 (lsGoal_some g1) h2 g2 h3 exAccelNew_quiet
  rw [g3, g4, g5] at this
  exact absurd this (by decide)

/-- C101 (partial): if no task runs on the board when `accel listen` subscribes, and client, cable and board have nothing left to do, then every
reading published in its turn is of a stream with the interval and the range that were typed, and it shows an initial part of those
whose `publish` returned `Ok`.  Missing: the case in which a task still runs, see `c101_own_false`. -/
theorem c101_own_partial (I : WbIcd) (U : UsbCfg WbVal E Unit WbCtx) (hU : UsbSound U) (hD : define_dispatch (wb_app E I) = .ok U.S.disp)
    (hkk : U.S.kkind = U.S.disp.n) (ha : WbApart I (keyLen U.S.disp.n)) (henc : ∀ v, U.S.enc (.val v) = enc_wb v)
    (hsize : ∀ b, (∀ v, b ≠ .val v) → (U.S.enc b).length ≤ 1000) (hclean : Clean U.S) {uid : BitVec 64} {held : Nat → Bool}
    {ls1 ls2 : List LsLabel} {y1 y2 y : LsSys E} {id : Nat} {ms : BitVec 32} {range : AccelRange} {dur : BitVec 32}
    (h1 : ls_run I U ls1 (LsSys.start uid held) = some y1) (hpc : y1.repl.pc = .subscribing ms range dur)
    (h2 : ls_step I U y1 .subscribed = some y2) (hid : y2.sub = some id) (h3 : ls_run I U ls2 y2 = some y)
    (hl : ∀ l ∈ ls2, LsLabel.isLine l = false) (hnone : y1.acc.task = none) (hq : UsbCaughtUp y1.repl.usb)
    (hlen : y.repl.usb.sys.client.calls.length < 2 ^ 32) :
    (∀ s ∈ sensed I U ls2 y2, s.rqst = ⟨ms, range⟩) ∧
    ∃ qs, qs <+: sensed I U ls2 y2 ∧ latest y.repl.term = (qs.filter (·.ok)).map (·.val) := by
  have S : WbSetup I U := ⟨hU, hD, hkk, ha, henc, hsize⟩
  refine ⟨sensed_own S h1 h2 hid hpc hnone h3 hl hlen, ?_⟩
  obtain ⟨late, _, hlate, qs, ⟨post, hqs⟩, hsh⟩ := c101_turn I U hU hD hkk ha henc hsize h1 h2 hid h3 hl
  have hno : late.filter (·.ok) = [] := List.filter_eq_nil_iff.mpr fun s hs => by rw [hlate hq s hs]; nofun
  rw [hsh.these hclean]
  rcases List.append_eq_append_iff.mp hqs with ⟨a, h, _⟩ | ⟨a, h, h'⟩
  · refine ⟨[], List.nil_prefix, ?_⟩
    rw [h, List.filter_append] at hno
    rw [(List.append_eq_nil_iff.mp hno).1]
    rfl
  · exact ⟨a, ⟨post, h'.symm⟩, by rw [h, List.filter_append, hno, List.nil_append]⟩

set_option synthInstance.maxSize 1000 in
theorem exAccel_alone : exLsTurn false exAccelLine exAccel (fun y1 y2 y => (lsGoal y1.repl.pc, lsCaughtUp y1.repl.usb, y2.sub,
      y1.acc.task.isNone, decide (y.repl.usb.sys.client.calls.length = 3), latest y.repl.term)) =
    some (some (10, .G2, 1000), true, some 0, true, true, [⟨5, 0, 0⟩, ⟨6, 0, 0⟩]) := by decide +kernel

/-- In the first session no task runs when it subscribes, and two readings are shown. -/
example : Clean exWb.S ∧ ∃ y1 y2 y, exLsRun false exAccelLine = some y1 ∧ y1.repl.pc = .subscribing 10 .G2 1000 ∧
    ls_step exIcd exWb y1 .subscribed = some y2 ∧ y2.sub = some 0 ∧ ls_run exIcd exWb exAccel y2 = some y ∧
    (∀ l ∈ exAccel, LsLabel.isLine l = false) ∧ y1.acc.task = none ∧ UsbCaughtUp y1.repl.usb ∧
    y.repl.usb.sys.client.calls.length < 2 ^ 32 ∧ latest y.repl.term = [⟨5, 0, 0⟩, ⟨6, 0, 0⟩] := by
  refine ⟨fun _ _ => rfl, ?_⟩
  obtain ⟨y1, y2, y, h1, h2, h3, g⟩ := exLsTurn_some exAccel_alone
  simp only [Prod.mk.injEq, Option.isNone_iff_eq_none, decide_eq_true_eq] at g
  obtain ⟨g1, g2, g3, g4, g5, g6⟩ := g
  exact ⟨y1, y2, y, h1, lsGoal_some g1, h2, g3, h3, exAccel_quiet, g4, lsCaughtUp_ok g2, by rw [g5]; omega, g6⟩

end PRpc.Props
