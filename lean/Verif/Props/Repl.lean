import Verif.Lemmas.ReplRun
import Verif.Props.WorkbookLive
/-!
C93: the terminal program of the workbook example.  What is typed at its prompt is what is done to the board, and what is printed is
true of the board: over the whole of program, client, USB cable, server and firmware.
-/

namespace PRpc.Props
open PRpc PRpc.Spec

variable {E : Type}

/-- C93: whenever there is a prompt, what is on the terminal is a dialogue: the greeting, with the board's identifier, and then, for each
line typed, exactly what that line asks for; and the board is as the lines typed have left it. -/
theorem c93_dialogue (I : WbIcd) (U : UsbCfg WbVal E Unit WbCtx) (hU : UsbSound U) (hD : define_dispatch (wb_app E I) = .ok U.S.disp)
    (hkk : U.S.kkind = U.S.disp.n) (ha : WbApart I (keyLen U.S.disp.n)) (henc : ∀ v, U.S.enc (.val v) = enc_wb v)
    (hsize : ∀ b, (∀ v, b ≠ .val v) → (U.S.enc b).length ≤ 1000)
    {ls : List RLabel} {id : BitVec 64} {held : Nat → Bool} {y : ReplSys E}
    (hrun : repl_run I U ls (ReplSys.start (wb_ctx id held)) = some y) (hlen : y.usb.sys.client.calls.length < 2 ^ 32) (hpc : y.pc = .reading) :
    ∃ b, Dialogue (Board.dark id held) y.term b ∧ Shows y.usb.sys.srv.ctx b := by
  have S : WbSetup I U := ⟨hU, hD, hkk, ha, henc, hsize⟩
  obtain ⟨ms, h1, h2⟩ := replInv_run S ls (replInv_start I U id held) hrun hlen
  rw [hpc] at h2
  obtain ⟨hb, hd⟩ := h2
  obtain ⟨⟨k, _, _, hk, hsh⟩, _⟩ := h1.board S (by rw [h1.made.len]; exact hlen)
  rw [hk hb, List.take_of_length_le (Nat.le_refl _)] at hsh
  exact ⟨_, hd, hsh⟩

/-- C93: at every moment, between prompts and after a panic too, at most one call is under way, the last one: every earlier one
has returned without an error of the communication; the board is as all the methods called, or all but the last, have left it; and every answer is
that of the board as the calls before it have left it. -/
theorem c93_one_at_a_time (I : WbIcd) (U : UsbCfg WbVal E Unit WbCtx) (hU : UsbSound U) (hD : define_dispatch (wb_app E I) = .ok U.S.disp)
    (hkk : U.S.kkind = U.S.disp.n) (ha : WbApart I (keyLen U.S.disp.n)) (henc : ∀ v, U.S.enc (.val v) = enc_wb v)
    (hsize : ∀ b, (∀ v, b ≠ .val v) → (U.S.enc b).length ≤ 1000)
    {ls : List RLabel} {id : BitVec 64} {held : Nat → Bool} {y : ReplSys E}
    (hrun : repl_run I U ls (ReplSys.start (wb_ctx id held)) = some y) (hlen : y.usb.sys.client.calls.length < 2 ^ 32) :
    ∃ ms, Made I y.usb.sys ms ∧
      (∀ (c : Nat) (m : WbMethod), c + 1 < ms.length → ms[c]? = some m →
        ∃ cl r, y.usb.sys.client.calls[c]? = some cl ∧ cl.phase = .done r ∧ wb_result m r ≠ .comms) ∧
      (∃ k, k ≤ ms.length ∧ ms.length ≤ k + 1 ∧ Shows y.usb.sys.srv.ctx ((ms.take k).foldl Board.after (Board.dark id held))) ∧
      ∀ (c : Nat) (cl : Call) (m : WbMethod) (r : CallRes), y.usb.sys.client.calls[c]? = some cl → ms[c]? = some m → cl.phase = .done r →
        wb_result m r ≠ .comms → ((ms.take c).foldl Board.after (Board.dark id held)).Answer m (wb_result m r) := by
  have S : WbSetup I U := ⟨hU, hD, hkk, ha, henc, hsize⟩
  obtain ⟨ms, h1, _⟩ := replInv_run S ls (replInv_start I U id held) hrun hlen
  obtain ⟨⟨k, k1, k2, _, k4⟩, ka⟩ := h1.board S (by rw [h1.made.len]; exact hlen)
  exact ⟨ms, h1.made, h1.back, ⟨k, k1, k2, k4⟩, ka⟩

/-! ### Mistakes -/

/-- C93 (partial): a line that is no command is complained about, with the complaint that fits it, and nothing else happens: no method is
called, the program asks for the next line.  Missing: lines that are commands to set colours but have no number where one should be,
see `c93_mistakes_false`. -/
theorem c93_mistakes_partial (I : WbIcd) (U : UsbCfg WbVal E Unit WbCtx) {y : ReplSys E} (hpc : y.pc = .reading) {line : List Char} {p : Printed}
    (h : Complaint line p) :
    repl_step I U y (.line line) = some { y with term := y.term ++ [.typed line, .printed p, .printed .prompt] } := by
  obtain ⟨usb, pc, term⟩ := y
  cases hpc
  simp only [repl_step, complaint_line h]
  rfl

/-- C93: what a line leads to is settled by its words: each line is of exactly one kind. -/
theorem c93_lines (line : List Char) :
    (∀ p, Complaint line p → repl_line line = ([p, .prompt], .reading)) ∧ (BadColour line → repl_line line = ([], .panicked)) ∧
    ((∀ p, ¬ Complaint line p) → ¬ BadColour line → ∃ ps pc, repl_line line = (ps, pc) ∧ ps = [] ∧ pc ≠ .panicked ∧ pc ≠ .reading) := by
  refine ⟨fun p h => complaint_line h, bad_line, fun h1 h2 => ?_⟩
  have hc := line_case line
  generalize repl_line line = x at hc ⊢
  cases hc with
  | complaint p h => exact absurd h (h1 p)
  | bad h => exact absurd h h2
  | _ => exact ⟨_, _, rfl, rfl, nofun, nofun⟩

/-- C93: nothing else makes the program panic than a command to set colours that lacks a number, a position that no LED has, and failures of
the communication. -/
theorem c93_panics (I : WbIcd) (U : UsbCfg WbVal E Unit WbCtx) (hU : UsbSound U) (hD : define_dispatch (wb_app E I) = .ok U.S.disp)
    (hkk : U.S.kkind = U.S.disp.n) (ha : WbApart I (keyLen U.S.disp.n)) (henc : ∀ v, U.S.enc (.val v) = enc_wb v)
    (hsize : ∀ b, (∀ v, b ≠ .val v) → (U.S.enc b).length ≤ 1000)
    {ls : List RLabel} {id : BitVec 64} {held : Nat → Bool} {y : ReplSys E}
    (hrun : repl_run I U ls (ReplSys.start (wb_ctx id held)) = some y) (hlen : y.usb.sys.client.calls.length < 2 ^ 32)
    {l : RLabel} {y' : ReplSys E} (hs : repl_step I U y l = some y') (hp : y.pc ≠ .panicked) (hp' : y'.pc = .panicked) : PanicCause y l := by
  have S : WbSetup I U := ⟨hU, hD, hkk, ha, henc, hsize⟩
  obtain ⟨ms, h1, h2⟩ := replInv_run S ls (replInv_start I U id held) hrun hlen
  obtain ⟨usb, pc, term⟩ := y
  cases l with
  | sys l =>
    rcases repl_step_calls hs with ⟨l', _, _, pc', hall, e, _⟩ | ⟨hn, _⟩
    · rw [← e, hp'] at hall
      rcases allows_cases hall with ⟨m, k, _, _, e⟩ | ⟨e, _⟩
      · cases e
      · exact absurd e.symm hp
    · exact absurd rfl (hn l)
  | line line =>
    simp only [repl_step] at hs
    split at hs
    · cases hs
      refine .line line ?_
      have hc := line_case line
      dsimp only at hp'
      generalize repl_line line = x at hc hp'
      cases hc with
      | bad h => exact h
      | _ => cases hp'
    · cases hs
  | returned =>
    simp only [repl_step] at hs
    split at hs
    · rename_i m c k
      split at hs
      · cases hs
      · rename_i cl hc
        split at hs
        · rename_i r hr
          cases hs
          obtain ⟨hm, hcl, hst⟩ := h2
          have hb := h1.board S (by rw [h1.made.len]; exact hlen)
          rcases returned_panics hst (hb.2 c cl m r hc hm hr) hp' with e | ⟨pos, red, green, blue, rfl, hge, e⟩
          · exact .failed m c k cl r rfl hc hr e
          · exact .position pos red green blue c k cl r rfl hc hr e hge
        · cases hs
    · cases hs
  | subscribed ok =>
    cases ok with
    | false => exact .not_subscribed
    | true =>
      exfalso
      simp only [repl_step] at hs
      split at hs
      · cases hs; cases hp'
      · cases hs; exact hp hp'
      · cases hs
  | clock el =>
    exfalso
    simp only [repl_step] at hs
    split at hs
    · cases hs
      dsimp only at hp'
      split at hp' <;> cases hp'
    · cases hs
  | received r =>
    cases r with
    | none => exact .not_received
    | some a =>
      exfalso
      simp only [repl_step] at hs
      split at hs
      · cases hs; cases hp'
      · contradiction
      · cases hs
  | reported r =>
    cases r with
    | none => exact .not_reported
    | some a =>
      exfalso
      simp only [repl_step] at hs
      split at hs
      · cases hs; cases hp'
      · contradiction
      · cases hs

/-! ### The end of the input, and waiting -/

/-- C93: when the input has ended, `read_line` gives empty lines for ever, and the program complains about them for ever: it does not end. -/
theorem c93_end_of_input (I : WbIcd) (U : UsbCfg WbVal E Unit WbCtx) {y : ReplSys E} (hpc : y.pc = .reading) (n : Nat) :
    repl_run I U (List.replicate n (.line [])) y =
      some { y with term := y.term ++ (List.replicate n [Term.typed [], .printed (.not_understood []), .printed .prompt]).flatten } := by
  induction n generalizing y with
  | zero => simp [repl_run]
  | succ n ih =>
    have h := c93_mistakes_partial I U hpc (.unknown [] (.nil [] (by simp)) nofun)
    rw [List.replicate_succ]
    simp only [repl_run, h]
    refine (ih (by exact hpc)).trans ?_
    simp [List.replicate_succ, List.append_assoc]

/-- C93: `accel listen` looks at the clock before each message; as long as the time that was typed is not over it waits for a message,
prints it and looks again, and the first time that it finds it over it stops the accelerometer. -/
theorem c93_listen_time (I : WbIcd) (U : UsbCfg WbVal E Unit WbCtx) (hU : UsbSound U) (hD : define_dispatch (wb_app E I) = .ok U.S.disp)
    (hkk : U.S.kkind = U.S.disp.n) (ha : WbApart I (keyLen U.S.disp.n)) (henc : ∀ v, U.S.enc (.val v) = enc_wb v)
    (hsize : ∀ b, (∀ v, b ≠ .val v) → (U.S.enc b).length ≤ 1000)
    {ls : List RLabel} {id : BitVec 64} {held : Nat → Bool} {y : ReplSys E}
    (hrun : repl_run I U ls (ReplSys.start (wb_ctx id held)) = some y) (hlen : y.usb.sys.client.calls.length < 2 ^ 32) {d : BitVec 32} :
    (y.pc = .listening d ∨ y.pc = .receiving d → ∃ before line accs, ListensFor line d ∧
      y.term = before ++ .typed line :: .printed .started :: List.map (fun a => Term.printed (.acc a)) accs) ∧
    (y.pc = .listening d → ∀ nanos y', repl_step I U y (.clock nanos) = some y' →
      y' = { y with pc := if nanos / 1000000 < d.toNat then .receiving d else .calling .stop_accelerometer .listened }) ∧
    (y.pc = .receiving d → ∀ a y', repl_step I U y (.received (some a)) = some y' →
      y' = { y with pc := .listening d, term := y.term ++ [.printed (.acc a)] }) := by
  have S : WbSetup I U := ⟨hU, hD, hkk, ha, henc, hsize⟩
  obtain ⟨ms, _, h2⟩ := replInv_run S ls (replInv_start I U id held) hrun hlen
  obtain ⟨usb, pc, term⟩ := y
  refine ⟨?_, ?_, ?_⟩
  · rintro (h | h)
    all_goals
      cases h
      obtain ⟨_, term0, b, line, ps, _, g2, accs, i, r, rfl, _, g5, _⟩ := h2
      refine ⟨term0, line, accs, g5, g2.trans ?_⟩
      simp
  · intro h nanos y' hs
    cases h
    cases hs
    have : nanos / 1000000 < d.toNat ↔ nanos < d.toNat * 1000000 := Nat.div_lt_iff_lt_mul (by decide)
    simp only [this]
  · intro h a y' hs
    cases h
    cases hs
    rfl

/-- C93: `accel listen`, once it waits for a message, waits until one comes (or cannot): however long that is, whatever else happens,
it neither stops the accelerometer nor reads another line. -/
theorem c93_listen_waits (I : WbIcd) (U : UsbCfg WbVal E Unit WbCtx) {ls : List RLabel} {y y' : ReplSys E} {dur : BitVec 32}
    (hpc : y.pc = .receiving dur) (hrun : repl_run I U ls y = some y') (hn : ∀ r, .received r ∉ ls) :
    y'.pc = .receiving dur ∧ y'.term = y.term ∧ y'.usb.sys.client.calls.length = y.usb.sys.client.calls.length := by
  induction ls generalizing y with
  | nil => cases hrun; exact ⟨hpc, rfl, rfl⟩
  | cons l ls ih =>
    simp only [repl_run] at hrun
    split at hrun
    · rename_i y1 h1
      have hn' : ∀ r, .received r ∉ ls := fun r h => hn r (List.mem_cons_of_mem _ h)
      obtain ⟨usb, pc, term⟩ := y
      cases hpc
      cases l with
      | sys l =>
        rcases repl_step_calls h1 with ⟨l', e, hu, pc', hall, e1, e2⟩ | ⟨hx, _⟩
        · cases e
          rcases allows_cases hall with ⟨m, k, e, _⟩ | ⟨e, huse, _, hnb, _⟩
          · cases e
          · obtain ⟨g1, g2, g3⟩ := ih (y := y1) (e1.trans e) hrun hn'
            refine ⟨g1, g2.trans e2, g3.trans ?_⟩
            have := congrArg List.length (u_step_same hu hnb (by rintro rqst resp rfl; exact huse))
            simpa using this
        · exact absurd rfl (hx l)
      | received r => exact absurd (List.mem_cons_self ..) (hn r)
      | _ => cases h1
    · cases hrun

/-- C93: the program goes on.  If the device's sends succeed and the client has not been closed, then wherever host, cable and board, left to
themselves, come to rest while the program waits for a call, the call has returned, and the program goes on with it; it panics only
if the board was asked for an LED that there is not, or if there was no room for the task of `start_accelerometer`. -/
theorem c93_goes_on (I : WbIcd) (U : UsbCfg WbVal E Unit WbCtx) (hU : UsbSound U) (hD : define_dispatch (wb_app E I) = .ok U.S.disp)
    (hkk : U.S.kkind = U.S.disp.n) (ha : WbApart I (keyLen U.S.disp.n)) (henc : ∀ v, U.S.enc (.val v) = enc_wb v)
    (htot : ∀ t, U.S.enc (.totals t) = enc_totals t)
    (hsize : ∀ b, (∀ v, b ≠ .val v) → (U.S.enc b).length ≤ 1000) (hbuf : 128 ≤ U.rxlen) (hsend : ∀ log f, U.S.env.send log f = none)
    (herr : U.S.cfg.err_key = I.std.error) (hdepth : 0 < U.S.cfg.outgoing_depth)
    (hcount : U.S.env.overflow_checks = false ∨ (schemaMsgs U.S.disp.device_map).length ≤ 65535)
    {ls : List RLabel} {id : BitVec 64} {held : Nat → Bool} {y : ReplSys E}
    (hrun : repl_run I U ls (ReplSys.start (wb_ctx id held)) = some y) (hlen : y.usb.sys.client.calls.length < 2 ^ 32)
    (hopen : Open y.usb.sys) {m : WbMethod} {c : Nat} {k : ReplCont} (hpc : y.pc = .waiting m c k)
    {own : List (ULabel WbVal)} {v : UsbSys WbVal E Unit WbCtx} (ho : UsbOwnRun U y.usb own v) (hstuck : UsbStuck U v) :
    ∃ y', repl_run I U (ls ++ own.map .sys ++ [.returned]) (ReplSys.start (wb_ctx id held)) = some y' ∧ y'.usb = v ∧
      (y'.pc = .panicked → (∃ pos r g b, m = .set_rgb_single pos r g b ∧ 24 ≤ pos.toNat) ∨ ∃ cl, v.sys.client.calls[c]? = some cl ∧ NotStarted v.sys.srv.log cl m) := by
  have S : WbSetup I U := ⟨hU, hD, hkk, ha, henc, hsize⟩
  obtain ⟨ms, h1, h2⟩ := replInv_run S ls (replInv_start I U id held) hrun hlen
  rw [hpc] at h2
  obtain ⟨hm, hcl, _⟩ := h2
  obtain ⟨r1, r2, r3⟩ := repl_run_labels ls hrun
  obtain ⟨_, _, hm', hall⟩ := c89_returns I U hU hD hkk ha henc htot hsize hbuf hsend herr hdepth hcount
    (fun l hl => (r2 l hl).1) (fun l hl => (r2 l hl).2) r1 hlen hopen h1.made ho hstuck
  obtain ⟨usb, pc, term⟩ := y
  cases hpc
  have hown := repl_own_run (I := I) ho (pc := .waiting m c k) nofun term
  have hrun2 := repl_run_append ls hrun hown
  have hlen2 : v.sys.client.calls.length < 2 ^ 32 := by rw [← hm'.len, h1.made.len]; exact hlen
  obtain ⟨cl, hc⟩ : ∃ cl, v.sys.client.calls[c]? = some cl := ⟨_, List.getElem?_eq_getElem (by rw [← hm'.len]; omega)⟩
  have hnd := (repl_run_labels _ hrun2).2.2 (by simp [ReplSys.start, UsbSys.new, Sys.new, Client.new])
  rcases hall c cl m hc hm with hd | ⟨r, hr, hres⟩
  · exact absurd hd (hnd cl (List.mem_of_getElem? hc))
  · have hstep : repl_step I U ⟨v, .waiting m c k, term⟩ .returned =
        some ⟨v, (repl_returned k (wb_result m r)).2, term ++ (repl_returned k (wb_result m r)).1.map .printed⟩ := by
      simp only [repl_step, hc, hr]
    refine ⟨_, repl_run_append _ hrun2 (by simp only [repl_run, hstep]; rfl), rfl, fun hp => ?_⟩
    have := c93_panics I U hU hD hkk ha henc hsize hrun2 hlen2 hstep nofun hp
    cases this with
    | failed m' c' k' cl' r' e1 e2 e3 e4 =>
      cases e1
      cases e2.symm.trans hc
      cases e3.symm.trans hr
      rcases hres with h | h
      · exact absurd e4 h
      · exact .inr ⟨cl, hc, h⟩
    | position pos red green blue c' k' cl' r' e1 e2 e3 e4 e5 =>
      cases e1
      exact .inl ⟨pos, red, green, blue, rfl, e5⟩

/-! ### A concrete session -/

/-- A call of the program, from its request to its return. -/
def replCall (c : Nat) (m : WbMethod) (b : Bytes) : List RLabel := (wbCall c m b).map .sys ++ [.returned]

/-- The greeting, and the prompt. -/
def exHello : List RLabel := replCall 0 (.ping 42) [0x20, 1, 0, 0, 0, 0, 42] ++ replCall 1 .get_id [0x20, 0xB2, 1, 0, 0, 0, 0xAC, 0x02]

/-- A ping, a mistake, a colour. -/
def exSession : List RLabel :=
  exHello ++ [.line "ping 7\n".toList] ++ replCall 2 (.ping 7) [0x20, 1, 2, 0, 0, 0, 7] ++ [.line "ping -7\n".toList, .line "rgb 3 10 20 30\n".toList] ++
  replCall 3 (.set_rgb_single 3 10 20 30) [0x20, 0xB3, 3, 0, 0, 0, 0]

/-- Whether the program is in `read_line`, and whether it has panicked. -/
def pcLook : ReplPc → Bool × Bool
  | .reading => (true, false)
  | .panicked => (false, true)
  | _ => (false, false)

theorem pcLook_reading {pc : ReplPc} (h : pcLook pc = (true, false)) : pc = .reading := by
  cases pc <;> first | rfl | cases h

theorem pcLook_panicked {pc : ReplPc} (h : pcLook pc = (false, true)) : pc = .panicked := by
  cases pc <;> first | rfl | cases h

/-- What of a run is looked at: where the program stands, the LEDs, and how the calls stand. -/
def exLook (ls : List RLabel) : Option ((Bool × Bool) × List Rgb8 × List Phase) :=
  (repl_run exIcd exWb ls (ReplSys.start (wb_ctx 300 fun _ => false))).map fun y =>
    (pcLook y.pc, y.usb.sys.srv.ctx.fw.shown.toList, y.usb.sys.client.calls.map (·.phase))

theorem exLook_some {ls : List RLabel} {a : Bool × Bool} {leds : List Rgb8} {ph : List Phase} (h : exLook ls = some (a, leds, ph)) :
    ∃ y, repl_run exIcd exWb ls (ReplSys.start (wb_ctx 300 fun _ => false)) = some y ∧ pcLook y.pc = a ∧
      y.usb.sys.srv.ctx.fw.shown.toList = leds ∧ y.usb.sys.client.calls.map (·.phase) = ph := by
  obtain ⟨y, h1, h2⟩ := Option.map_eq_some_iff.mp h
  cases h2
  exact ⟨y, h1, rfl, rfl, rfl⟩

set_option synthInstance.maxSize 1000 in
theorem exSession_result : exLook exSession = some ((true, false), [⟨0, 0, 0⟩, ⟨0, 0, 0⟩, ⟨0, 0, 0⟩, ⟨10, 20, 30⟩] ++ List.replicate 20 ⟨0, 0, 0⟩,
    [.done (.Resp ⟨⟨.Key1 ⟨1⟩, .Seq4 0⟩, [42]⟩ 0), .done (.Resp ⟨⟨.Key1 ⟨0xB2⟩, .Seq4 1⟩, [0xAC, 0x02]⟩ 1),
      .done (.Resp ⟨⟨.Key1 ⟨1⟩, .Seq4 2⟩, [7]⟩ 2), .done (.Resp ⟨⟨.Key1 ⟨0xB3⟩, .Seq4 3⟩, [0]⟩ 3)]) := by decide +kernel

/-- The theorems on a session apply to this one: the program has called four methods and shows its prompt. -/
example : UsbSound exWb ∧ define_dispatch (wb_app WireTxErrorKind exIcd) = .ok exWb.S.disp ∧ exWb.S.kkind = exWb.S.disp.n ∧
    WbApart exIcd (keyLen exWb.S.disp.n) ∧ (∀ v, exWb.S.enc (.val v) = enc_wb v) ∧ (∀ b, (∀ v, b ≠ .val v) → (exWb.S.enc b).length ≤ 1000) ∧
    ∃ y, repl_run exIcd exWb exSession (ReplSys.start (wb_ctx 300 fun _ => false)) = some y ∧ y.usb.sys.client.calls.length < 2 ^ 32 ∧
      y.pc = .reading ∧ ∃ b, Dialogue (Board.dark 300 fun _ => false) y.term b ∧ b.led 3 = ⟨10, 20, 30⟩ := by
  have hU : UsbSound exWb := ⟨⟨16, rfl⟩, by decide, by decide⟩
  have hsize : ∀ b, (∀ v, b ≠ .val v) → (exWb.S.enc b).length ≤ 1000 := by
    intro b hb
    cases b with
    | val v => exact absurd rfl (hb v)
    | _ => exact Nat.le_of_ble_eq_true rfl
  refine ⟨hU, exWb_ok, rfl, exWb_apart, fun _ => rfl, hsize, ?_⟩
  obtain ⟨y, h1, h2, h3, h4⟩ := exLook_some exSession_result
  have hpc := pcLook_reading h2
  have hlen : y.usb.sys.client.calls.length < 2 ^ 32 := by
    have := congrArg List.length h4
    rw [List.length_map] at this
    rw [this]; decide
  refine ⟨y, h1, hlen, hpc, ?_⟩
  obtain ⟨b, hd, hsh⟩ := c93_dialogue exIcd exWb hU exWb_ok rfl exWb_apart (fun _ => rfl) hsize h1 hlen hpc
  refine ⟨b, hd, ?_⟩
  rw [← hsh.shown 3]
  have e : y.usb.sys.srv.ctx.fw.shown[(3 : Fin 24)] = y.usb.sys.srv.ctx.fw.shown.toList[3]'(by simp) := by
    rw [Vector.getElem_toList]; rfl
  rw [e]
  simp only [h3]
  rfl

/-- No number. -/
def exBad : List RLabel := exHello ++ [.line "rgb 0 0 0 256\n".toList]

/-- No LED. -/
def exNoLed : List RLabel :=
  exHello ++ [.line "rgb 24 1 1 1\n".toList] ++ replCall 2 (.set_rgb_single 24 1 1 1) [0x20, 0xB3, 2, 0, 0, 0, 1]

set_option synthInstance.maxSize 1000 in
theorem exHello_result : exLook exHello = some ((true, false), List.replicate 24 ⟨0, 0, 0⟩,
    [.done (.Resp ⟨⟨.Key1 ⟨1⟩, .Seq4 0⟩, [42]⟩ 0), .done (.Resp ⟨⟨.Key1 ⟨0xB2⟩, .Seq4 1⟩, [0xAC, 0x02]⟩ 1)]) := by decide +kernel

set_option synthInstance.maxSize 1000 in
theorem exBad_result : exLook exBad = some ((false, true), List.replicate 24 ⟨0, 0, 0⟩,
    [.done (.Resp ⟨⟨.Key1 ⟨1⟩, .Seq4 0⟩, [42]⟩ 0), .done (.Resp ⟨⟨.Key1 ⟨0xB2⟩, .Seq4 1⟩, [0xAC, 0x02]⟩ 1)]) := by decide +kernel

set_option synthInstance.maxSize 1000 in
theorem exNoLed_result : exLook exNoLed = some ((false, true), List.replicate 24 ⟨0, 0, 0⟩,
    [.done (.Resp ⟨⟨.Key1 ⟨1⟩, .Seq4 0⟩, [42]⟩ 0), .done (.Resp ⟨⟨.Key1 ⟨0xB2⟩, .Seq4 1⟩, [0xAC, 0x02]⟩ 1),
      .done (.Resp ⟨⟨.Key1 ⟨0xB3⟩, .Seq4 2⟩, [1]⟩ 2)]) := by decide +kernel

/-- C93 is false as to mistakes: typing `rgb 0 0 0 256`, or `rgb 24 1 1 1`, at the prompt ends the program with a panic, though
all calls return and nothing is wrong with the communication. -/
theorem c93_mistakes_false :
    (∃ y, repl_run exIcd exWb exHello (ReplSys.start (wb_ctx 300 fun _ => false)) = some y ∧ y.pc = .reading) ∧
    (∃ y, repl_run exIcd exWb (exHello ++ [.line "rgb 0 0 0 256\n".toList]) (ReplSys.start (wb_ctx 300 fun _ => false)) = some y ∧ y.pc = .panicked) ∧
    (∃ y, repl_run exIcd exWb (exHello ++ [.line "rgb 24 1 1 1\n".toList] ++ replCall 2 (.set_rgb_single 24 1 1 1) [0x20, 0xB3, 2, 0, 0, 0, 1])
      (ReplSys.start (wb_ctx 300 fun _ => false)) = some y ∧ y.pc = .panicked ∧
      y.usb.sys.client.calls.map (·.phase) = [.done (.Resp ⟨⟨.Key1 ⟨1⟩, .Seq4 0⟩, [42]⟩ 0), .done (.Resp ⟨⟨.Key1 ⟨0xB2⟩, .Seq4 1⟩, [0xAC, 0x02]⟩ 1),
        .done (.Resp ⟨⟨.Key1 ⟨0xB3⟩, .Seq4 2⟩, [1]⟩ 2)]) := by
  obtain ⟨y0, a1, a2, _⟩ := exLook_some exHello_result
  obtain ⟨y1, b1, b2, _⟩ := exLook_some exBad_result
  obtain ⟨y2, d1, d2, _, d3⟩ := exLook_some exNoLed_result
  exact ⟨⟨y0, a1, pcLook_reading a2⟩, ⟨y1, b1, pcLook_panicked b2⟩, y2, d1, pcLook_panicked d2, d3⟩

/-- `ping -7` is complained about: -7 is no `u32`. -/
example : Complaint "ping -7\n".toList (.bad_u32 "-7".toList) :=
  .ping _ ((words_iff _ _).mpr (by decide)) ((parse_none _).mp (by decide))

/-- `rgb 0 0 0 256` lacks a number: 256 is no `u8`. -/
example : BadColour "rgb 0 0 0 256\n".toList :=
  .rgb "0".toList "0".toList "0".toList "256".toList ((words_iff _ _).mpr (by decide)) (.inr (.inr (.inr ((parse_none _).mp (by decide)))))

/-- The program waits for its first call, and what it waits for comes. -/
example : ∃ y own v, repl_run exIcd (exWb2 true) [.sys (.client (.call_begin (exKey 1) (exKey 1) [42]))]
      (ReplSys.start (wb_ctx 300 fun _ => false)) = some y ∧ y.pc = .waiting (.ping 42) 0 .hello ∧ Open y.usb.sys ∧
    UsbOwnRun (exWb2 true) y.usb own v ∧ UsbStuck (exWb2 true) v ∧
    ∃ y', repl_run exIcd (exWb2 true) ([.sys (.client (.call_begin (exKey 1) (exKey 1) [42]))] ++ own.map .sys ++ [.returned])
      (ReplSys.start (wb_ctx 300 fun _ => false)) = some y' ∧ y'.pc ≠ .panicked := by
  obtain ⟨hU, hD, hkk, ha, henc, htot, hsize, hbuf, hsend, herr, hdepth, hcount⟩ := exWb2_ready true
  obtain ⟨y, e1, e2, e3, e4⟩ : ∃ y, repl_run exIcd (exWb2 true) [.sys (.client (.call_begin (exKey 1) (exKey 1) [42]))]
      (ReplSys.start (wb_ctx 300 fun _ => false)) = some y ∧ y.pc = .waiting (.ping 42) 0 .hello ∧ Open y.usb.sys ∧
      y.usb.sys.client.calls.length = 1 := ⟨_, rfl, rfl, ⟨rfl, rfl⟩, rfl⟩
  have hlt : y.usb.sys.client.calls.length < 2 ^ 32 := by rw [e4]; decide
  obtain ⟨r1, r2, _⟩ := repl_run_labels _ e1
  obtain ⟨⟨own, v, ho, hst⟩, _⟩ := c89_comes_to_rest exIcd (exWb2 true) hU hD hkk ha henc hsize hbuf hsend herr (.inr hcount)
    (fun l hl => (r2 l hl).1) (fun l hl => (r2 l hl).2) r1 hlt
  obtain ⟨y', f1, _, f3⟩ := c93_goes_on exIcd (exWb2 true) hU hD hkk ha henc htot hsize hbuf hsend herr hdepth (.inr hcount) e1 hlt e3 e2 ho hst
  refine ⟨y, own, v, e1, e2, e3, ho, hst, y', f1, fun hp => ?_⟩
  rcases f3 hp with ⟨_, _, _, _, h, _⟩ | ⟨cl, _, ⟨⟨_, _, _, _, h, _⟩⟩⟩ <;> cases h

/-- `accel listen` has begun and waits for its first message. -/
def exListen : List RLabel :=
  exHello ++ [.line "accel listen 10 2 1000\n".toList, .sys (.client (.sub_multi (exKey 0xA1) 8)), .subscribed true] ++
  ([.client (.call_begin (exKey 0x15) (exKey 0xB5) [10, 0]), .client (.call_kind 2), .client (.call_reg_ok 2), .client (.call_reg_err 2),
    .client (.call_send 2), .client .out_poll, .client .out_recv, .host_packet, .dev_read, .client (.out_done true), .client .out_yield,
    .task_reply 0 .unit, .dev_write .ok, .client .in_poll, .client (.in_recv (some [0x20, 0xB5, 2, 0, 0, 0])), .client .in_lookup,
    .client (.in_wake (some ⟨2, false⟩)), .client .in_yield, .client (.call_ok 2)] : List (ULabel WbVal)).map .sys ++ [.returned, .clock 5]

theorem exListen_result : (repl_run exIcd exWb exListen (ReplSys.start (wb_ctx 300 fun _ => false))).map (fun y => match y.pc with
    | .receiving dur => some dur | _ => none) = some (some 1000) := by decide +kernel

/-- A program that waits so, for a message that does not come. -/
example : ∃ y, repl_run exIcd exWb exListen (ReplSys.start (wb_ctx 300 fun _ => false)) = some y ∧ y.pc = .receiving 1000 ∧
    ∃ y', repl_run exIcd exWb [.sys (.client .in_poll), .sys (.client .in_yield)] y = some y' ∧ y'.pc = .receiving 1000 := by
  obtain ⟨y, h1, h2⟩ := Option.map_eq_some_iff.mp exListen_result
  have hpc : y.pc = .receiving 1000 := by
    revert h2
    cases y.pc <;> intro h2 <;> cases h2
    rfl
  refine ⟨y, h1, hpc, ?_⟩
  obtain ⟨y', e⟩ : ∃ y', repl_run exIcd exWb [.sys (.client .in_poll), .sys (.client .in_yield)] y = some y' := by
    have h : (repl_run exIcd exWb (exListen ++ [.sys (.client .in_poll), .sys (.client .in_yield)]) (ReplSys.start (wb_ctx 300 fun _ => false))).isSome = true := by
      decide +kernel
    cases e : repl_run exIcd exWb [.sys (.client .in_poll), .sys (.client .in_yield)] y with
    | some y' => exact ⟨y', rfl⟩
    | none =>
      rw [repl_run_none _ h1 e] at h
      cases h
  exact ⟨y', e, (c93_listen_waits exIcd exWb hpc e (by simp)).1⟩

end PRpc.Props
