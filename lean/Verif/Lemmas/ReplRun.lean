import Verif.Lemmas.Repl
import Verif.Lemmas.WorkbookLive
/-! Helper lemmas for C93: the program and the board. -/

namespace PRpc
open Spec Props

variable {E : Type}

/-- What C89 asks of the system. -/
structure WbSetup (I : WbIcd) (U : UsbCfg WbVal E Unit WbCtx) : Prop where
  sound : UsbSound U
  disp : define_dispatch (wb_app E I) = .ok U.S.disp
  kkind : U.S.kkind = U.S.disp.n
  apart : WbApart I (keyLen U.S.disp.n)
  enc : ∀ v, U.S.enc (.val v) = enc_wb v
  size : ∀ b, (∀ v, b ≠ .val v) → (U.S.enc b).length ≤ 1000

/-- Call `c`, of method `m`, has returned, without an error of the communication. -/
def ReturnedIn (s : Sys WbVal E Unit WbCtx) (c : Nat) (m : WbMethod) : Prop :=
  ∃ cl r, s.client.calls[c]? = some cl ∧ cl.phase = .done r ∧ wb_result m r ≠ .comms

/-- One call at a time: the methods `ms` have been called one after the other, and all but perhaps the last have returned. -/
structure OneByOne (I : WbIcd) (U : UsbCfg WbVal E Unit WbCtx) (c0 : WbCtx) (ls : List (ULabel WbVal)) (u : UsbSys WbVal E Unit WbCtx)
    (ms : List WbMethod) : Prop where
  run : u_run U ls (UsbSys.new c0) = some u
  uses : ∀ l ∈ ls, WbUses I l
  made : Made I u.sys ms
  before : ∀ (c c' : Nat) (m : WbMethod), c < c' → c' < ms.length → ms[c]? = some m → ∃ ls1 ls2 u1, ls = ls1 ++ ls2 ∧
    u_run U ls1 (UsbSys.new c0) = some u1 ∧ ReturnedIn u1.sys c m ∧ u1.sys.client.calls.length ≤ c'
  back : ∀ (c : Nat) (m : WbMethod), c + 1 < ms.length → ms[c]? = some m → ReturnedIn u.sys c m

/-- All have returned. -/
def AllBack (u : UsbSys WbVal E Unit WbCtx) (ms : List WbMethod) : Prop :=
  ∀ (c : Nat) (m : WbMethod), ms[c]? = some m → ReturnedIn u.sys c m

theorem OneByOne.board {I : WbIcd} {U : UsbCfg WbVal E Unit WbCtx} (S : WbSetup I U) {id : BitVec 64} {held : Nat → Bool}
    {ls : List (ULabel WbVal)} {u : UsbSys WbVal E Unit WbCtx} {ms : List WbMethod} (h : OneByOne I U (wb_ctx id held) ls u ms)
    (hlen : ms.length < 2 ^ 32) :
    (∃ k, k ≤ ms.length ∧ ms.length ≤ k + 1 ∧ (AllBack u ms → k = ms.length) ∧
      Shows u.sys.srv.ctx ((ms.take k).foldl Board.after (Board.dark id held))) ∧
    ∀ (c : Nat) (cl : Call) (m : WbMethod) (r : CallRes), u.sys.client.calls[c]? = some cl → ms[c]? = some m → cl.phase = .done r →
      wb_result m r ≠ .comms → ((ms.take c).foldl Board.after (Board.dark id held)).Answer m (wb_result m r) := by
  obtain ⟨order, hnd, hlt, hsh, hans, hbef⟩ := c89_board I U S.sound S.disp S.kkind S.apart S.enc S.size h.uses h.run
    (by rw [← h.made.len]; exact hlen) h.made
  rw [← h.made.len] at hlt
  have hinc : order.Pairwise (· < ·) := increasing_of hnd fun c c' h1 h2 _ => by
    have hc' := hlt c' h1
    obtain ⟨m, hm⟩ : ∃ m, ms[c]? = some m := ⟨_, List.getElem?_eq_getElem (by omega)⟩
    obtain ⟨ls1, ls2, u1, e1, e2, ⟨cl, r, e3, e4, e5⟩, e6⟩ := h.before c c' m h2 hc' hm
    exact hbef ls1 ls2 u1 c c' cl m r e1 e2 e3 hm e4 e5 e6 h1
  have hin : ∀ (c : Nat) (m : WbMethod), ms[c]? = some m → ReturnedIn u.sys c m → c ∈ order := by
    rintro c m hm ⟨cl, r, e1, e2, e3⟩
    obtain ⟨pre, post, e, _⟩ := hans c cl m r e1 hm e2 e3
    rw [e]; simp
  obtain ⟨k, hk1, hk2, hk3, hk4⟩ : ∃ k, k ≤ ms.length ∧ ms.length ≤ k + 1 ∧ (AllBack u ms → k = ms.length) ∧ order = List.range k := by
    have hin' : ∀ c, c + 1 < ms.length → c ∈ order := fun c hc =>
      hin c _ (List.getElem?_eq_getElem (by omega)) (h.back c _ hc (List.getElem?_eq_getElem (by omega)))
    by_cases hl : ∃ c ∈ order, c + 1 = ms.length
    · obtain ⟨n, hn, e⟩ := hl
      refine ⟨ms.length, Nat.le_refl _, by omega, fun _ => rfl, increasing_eq hinc (range_increasing _) fun x => ?_⟩
      rw [List.mem_range]
      refine ⟨hlt x, fun hx => ?_⟩
      by_cases hx' : x + 1 < ms.length
      · exact hin' x hx'
      · have : x = n := by omega
        rw [this]; exact hn
    · refine ⟨ms.length - 1, by omega, by omega, fun hb => ?_, increasing_eq hinc (range_increasing _) fun x => ?_⟩
      · rcases Nat.eq_zero_or_pos ms.length with h0 | h0
        · omega
        · exfalso
          obtain ⟨m, hm⟩ : ∃ m, ms[ms.length - 1]? = some m := ⟨_, List.getElem?_eq_getElem (by omega)⟩
          exact hl ⟨ms.length - 1, hin _ m hm (hb _ m hm), by omega⟩
      · rw [List.mem_range]
        constructor
        · intro hx
          have := hlt x hx
          have : x + 1 ≠ ms.length := fun e => hl ⟨x, hx, e⟩
          omega
        · intro hx
          exact hin' x (by omega)
  refine ⟨⟨k, hk1, hk2, hk3, ?_⟩, fun c cl m r h1 h2 h3 h4 => ?_⟩
  · rw [← boardAfter_range, ← hk4]; exact hsh
  · obtain ⟨pre, post, e, ha, _⟩ := hans c cl m r h1 h2 h3 h4
    rw [hk4] at e
    rw [prefix_range e, boardAfter_range] at ha
    exact ha

/-! ### Steps -/

theorem u_run_snoc {V SC Ctx : Type} {U : UsbCfg V E SC Ctx} {ls : List (ULabel V)} {l : ULabel V} {u0 u u' : UsbSys V E SC Ctx}
    (h : u_run U ls u0 = some u) (hs : u_step U u l = some u') : u_run U (ls ++ [l]) u0 = some u' :=
  u_run_append h (by simp only [u_run, hs])

theorem returned_step {U : UsbCfg WbVal E Unit WbCtx} {u u' : UsbSys WbVal E Unit WbCtx} {l : ULabel WbVal}
    (hs : u_step U u l = some u') {c : Nat} {m : WbMethod} (h : ReturnedIn u.sys c m) : ReturnedIn u'.sys c m := by
  obtain ⟨cl, r, h1, h2, h3⟩ := h
  exact ⟨cl, r, u_step_done hs h1 h2, h2, h3⟩

theorem OneByOne.other {I : WbIcd} {U : UsbCfg WbVal E Unit WbCtx} {c0 : WbCtx} {ls : List (ULabel WbVal)} {u u' : UsbSys WbVal E Unit WbCtx}
    {ms : List WbMethod} (h : OneByOne I U c0 ls u ms) {l : ULabel WbVal} (hs : u_step U u l = some u') (hu : WbUses I l)
    (hn : ∀ req resp body, l ≠ .client (.call_begin req resp body)) : OneByOne I U c0 (ls ++ [l]) u' ms := by
  refine ⟨u_run_snoc h.run hs, ?_, made_same h.made (u_step_same hs hn ?_), ?_, ?_⟩
  · intro l' hl'
    rcases List.mem_append.mp hl' with h' | h'
    · exact h.uses l' h'
    · rw [List.mem_singleton.mp h']; exact hu
  · rintro rqst resp rfl
    exact hu
  · intro c c' m h1 h2 h3
    obtain ⟨ls1, ls2, u1, e1, e2⟩ := h.before c c' m h1 h2 h3
    exact ⟨ls1, ls2 ++ [l], u1, by rw [e1, List.append_assoc], e2⟩
  · intro c m h1 h2
    exact returned_step hs (h.back c m h1 h2)

theorem OneByOne.call {I : WbIcd} {U : UsbCfg WbVal E Unit WbCtx} {c0 : WbCtx} {ls : List (ULabel WbVal)} {u u' : UsbSys WbVal E Unit WbCtx}
    {ms : List WbMethod} (h : OneByOne I U c0 ls u ms) (hb : AllBack u ms) {m : WbMethod}
    (hs : u_step U u (.client (.call_begin (m.req I) (m.resp I) m.body)) = some u') :
    OneByOne I U c0 (ls ++ [.client (.call_begin (m.req I) (m.resp I) m.body)]) u' (ms ++ [m]) := by
  obtain ⟨cl, e, h1, h2, h3⟩ := u_step_begin hs
  have old : ∀ (c : Nat) (m' : WbMethod), c < ms.length → (ms ++ [m])[c]? = some m' → ms[c]? = some m' := by
    intro c m' hc hm
    rw [List.getElem?_append_left hc] at hm
    exact hm
  refine ⟨u_run_snoc h.run hs, ?_, made_more h.made e h1 h2 h3, ?_, ?_⟩
  · intro l' hl'
    rcases List.mem_append.mp hl' with h' | h'
    · exact h.uses l' h'
    · rw [List.mem_singleton.mp h']; exact ⟨m, rfl, rfl, rfl⟩
  · intro c c' m' g1 g2 g3
    rw [List.length_append, List.length_singleton] at g2
    by_cases hc' : c' < ms.length
    · obtain ⟨ls1, ls2, u1, e1, e2⟩ := h.before c c' m' g1 hc' (old c m' (by omega) g3)
      exact ⟨ls1, ls2 ++ _, u1, by rw [e1, List.append_assoc], e2⟩
    · exact ⟨ls, _, u, rfl, h.run, hb c m' (old c m' (by omega) g3), by rw [← h.made.len]; omega⟩
  · intro c m' g1 g2
    rw [List.length_append, List.length_singleton] at g1
    exact returned_step hs (hb c m' (old c m' (by omega) g2))

/-! ### Where the program stands -/

/-- All turns that `accel listen` may take, and the time asked for. -/
def ListenOk (b : Board) (line : List Char) (ms : BitVec 32) (range : AccelRange) (dur : BitVec 32) : Prop :=
  ListensFor line dur ∧ ∀ accs : List Acceleration,
    Turn b line (.started :: accs.map .acc ++ [.stopped]) ((b.after (.start_accelerometer ms range)).after .stop_accelerometer)

/-- What the program is doing about the line, `ps` having been printed and the board being `bn` now. -/
def Ahead (b : Board) (line : List Char) (ps : List Printed) (bn : Board) : ReplPc → Prop
  | .calling m .pinged => ps = [] ∧ bn = b ∧ ∃ n, m = .ping n ∧ Turn b line [.got n] b
  | .calling m .colour => ps = [] ∧ bn = b ∧
      ((∃ p r g l, m = .set_rgb_single p r g l) ∨ ∃ r g l, m = .set_all_rgb_single r g l) ∧ (b.Answer m .unit → Turn b line [] (b.after m))
  | .calling m .started => ps = [] ∧ bn = b ∧ ∃ i r, m = .start_accelerometer i r ∧ Turn b line [.started] (b.after m)
  | .calling m .stopped => ps = [] ∧ bn = b ∧ m = .stop_accelerometer ∧ Turn b line [.stopped_was (b.busy b.stops)] (b.after m)
  | .calling m .schema => ps = [] ∧ bn = b ∧ m = .schemas ∧ ∀ r, Turn b line [.report r] b
  | .calling m (.listen dur) => ps = [] ∧ bn = b ∧ ∃ i r, m = .start_accelerometer i r ∧ ListenOk b line i r dur
  | .calling m .listened => m = .stop_accelerometer ∧
      ∃ accs i r dur, ps = .started :: List.map .acc accs ∧ bn = b.after (.start_accelerometer i r) ∧ ListenOk b line i r dur
  | .subscribing i r dur => ps = [] ∧ bn = b ∧ ListenOk b line i r dur
  | .listening dur => ∃ accs i r, ps = .started :: List.map .acc accs ∧ bn = b.after (.start_accelerometer i r) ∧ ListenOk b line i r dur
  | .receiving dur => ∃ accs i r, ps = .started :: List.map .acc accs ∧ bn = b.after (.start_accelerometer i r) ∧ ListenOk b line i r dur
  | .reporting => ps = [] ∧ bn = b ∧ ∀ r, Turn b line [.report r] b
  | _ => False

/-- Where the program stands when all its calls have returned, the board being `bn`. -/
def Status (b0 : Board) (term : List Term) (bn : Board) : ReplPc → Prop
  | .calling m .hello => m = .ping 42 ∧ bn = b0 ∧ term = List.map Term.printed [.connecting, .connected]
  | .calling m .uid => m = .get_id ∧ bn = b0 ∧ term = List.map Term.printed [.connecting, .connected, .got 42]
  | .reading => Dialogue b0 term bn
  | .panicked => True
  | pc => ∃ term0 b line ps, Dialogue b0 term0 b ∧ term = term0 ++ .typed line :: List.map Term.printed ps ∧ Ahead b line ps bn pc

theorem status_line {b0 b : Board} {term : List Term} (h : Dialogue b0 term b) (line : List Char) :
    Status b0 (term ++ .typed line :: (repl_line line).1.map .printed) b (repl_line line).2 := by
  have hc := line_case line
  generalize repl_line line = x at *
  cases hc with
  | complaint p hp => exact .turn h (.complaint p hp)
  | bad hb => trivial
  | ping hw => exact ⟨term, b, line, [], h, rfl, rfl, rfl, 42, rfl, .ping hw⟩
  | ping_n t n hw hn => exact ⟨term, b, line, [], h, rfl, rfl, rfl, n, rfl, .ping_n t n hw hn⟩
  | rgb tp tr tg tb pos red green blue hw hp hr hg hb =>
    refine ⟨term, b, line, [], h, rfl, rfl, rfl, .inl ⟨_, _, _, _, rfl⟩, fun ha => ?_⟩
    cases ha with
    | set_one _ _ _ _ hlt => exact .rgb tp tr tg tb pos red green blue hw hp hr hg hb hlt
  | rgball tr tg tb red green blue hw hr hg hb =>
    exact ⟨term, b, line, [], h, rfl, rfl, rfl, .inr ⟨_, _, _, rfl⟩, fun _ => .rgball tr tg tb red green blue hw hr hg hb⟩
  | listen tms trange tdur ms dur range hw hms hr hdur =>
    exact ⟨term, b, line, [], h, rfl, rfl, rfl, ⟨tms, trange, tdur, hw, hdur⟩, fun accs => .listen tms trange tdur ms dur range accs hw hms hr hdur⟩
  | start tms trange ms range hw hms hr =>
    exact ⟨term, b, line, [], h, rfl, rfl, rfl, ms, range, rfl, .start tms trange ms range hw hms hr⟩
  | stop hw => exact ⟨term, b, line, [], h, rfl, rfl, rfl, rfl, .stop hw⟩
  | schema hw => exact ⟨term, b, line, [], h, rfl, rfl, rfl, rfl, fun r => .schema r hw⟩

/-- The method returns. -/
theorem status_returned {b0 bn : Board} {term : List Term} {m : WbMethod} {k : ReplCont} (h : Status b0 term bn (.calling m k)) {o : WbOut}
    (ha : o ≠ .comms → bn.Answer m o) :
    Status b0 (term ++ (repl_returned k o).1.map .printed) (bn.after m) (repl_returned k o).2 := by
  have fin : ∀ {term0 : List Term} {b b' : Board} {line : List Char} {ps qs : List Printed}, Dialogue b0 term0 b →
      term = term0 ++ .typed line :: List.map Term.printed ps → Turn b line (ps ++ qs) b' →
      Dialogue b0 (term ++ List.map Term.printed (qs ++ [.prompt])) b' := by
    intro term0 b b' line ps qs h1 h2 h3
    have := Dialogue.turn h1 h3
    rw [h2]
    simpa using this
  cases k with
  | hello =>
    obtain ⟨rfl, rfl, rfl⟩ := h
    cases o with
    | num n => cases ha nofun; exact ⟨rfl, rfl, rfl⟩
    | _ => trivial
  | uid =>
    obtain ⟨rfl, rfl, rfl⟩ := h
    cases o with
    | id n =>
      cases ha nofun
      exact .hello
    | _ => trivial
  | pinged =>
    obtain ⟨term0, b, line, ps, h1, h2, rfl, rfl, n, rfl, ht⟩ := h
    cases o with
    | num x => cases ha nofun; exact fin h1 h2 ht
    | _ => trivial
  | colour =>
    obtain ⟨term0, b, line, ps, h1, h2, rfl, rfl, hm, ht⟩ := h
    cases o with
    | unit => exact fin h1 h2 (ht (ha nofun))
    | _ => trivial
  | listen dur =>
    obtain ⟨term0, b, line, ps, h1, h2, rfl, rfl, i, r, rfl, ht⟩ := h
    cases o with
    | unit => exact ⟨term0, bn, line, [.started], h1, by rw [h2, List.append_assoc]; rfl, [], i, r, rfl, rfl, ht⟩
    | _ => trivial
  | listened =>
    obtain ⟨term0, b, line, ps, h1, h2, rfl, accs, i, r, dur, rfl, rfl, ht⟩ := h
    cases o with
    | busy x => exact fin h1 h2 (ht.2 accs)
    | _ => trivial
  | started =>
    obtain ⟨term0, b, line, ps, h1, h2, rfl, rfl, i, r, rfl, ht⟩ := h
    cases o with
    | unit => exact fin h1 h2 ht
    | _ => trivial
  | stopped =>
    obtain ⟨term0, b, line, ps, h1, h2, rfl, rfl, rfl, ht⟩ := h
    cases o with
    | busy x => cases ha nofun; exact fin h1 h2 ht
    | _ => trivial
  | schema =>
    obtain ⟨term0, b, line, ps, h1, h2, rfl, rfl, rfl, ht⟩ := h
    cases o with
    | report x => exact ⟨term0, bn, line, [], h1, by rw [h2, List.append_assoc]; rfl, rfl, rfl, ht⟩
    | _ => trivial

theorem complaint_line {line : List Char} {p : Printed} (h : Complaint line p) : repl_line line = again [p] := by
  cases h with
  | ping n h hn =>
    unfold repl_line; rw [(words_iff _ _).mp h]
    simp [arm_ping, (parse_none _).mpr hn]
  | listen_ms ms range dur h hms =>
    unfold repl_line; rw [(words_iff _ _).mp h]
    simp [arm_listen, (parse_none _).mpr hms]
  | listen_dur ms range dur h hms hdur =>
    obtain ⟨n, hn⟩ := hms
    unfold repl_line; rw [(words_iff _ _).mp h]
    simp [arm_listen, (parse_iff _ _).mpr hn, (parse_none _).mpr hdur]
  | listen_range ms range dur h hms hdur hr =>
    obtain ⟨n, hn⟩ := hms
    obtain ⟨n', hn'⟩ := hdur
    unfold repl_line; rw [(words_iff _ _).mp h]
    simp [arm_listen, (parse_iff _ _).mpr hn, (parse_iff _ _).mpr hn', (range_none _).mpr hr]
  | start_ms ms range h hms =>
    unfold repl_line; rw [(words_iff _ _).mp h]
    simp [arm_start, (parse_none _).mpr hms]
  | start_range ms range h hms hr =>
    obtain ⟨n, hn⟩ := hms
    unfold repl_line; rw [(words_iff _ _).mp h]
    simp [arm_start, (parse_iff _ _).mpr hn, (range_none _).mpr hr]
  | unknown ws h hs =>
    unfold repl_line; rw [(words_iff _ _).mp h]
    split
    · split
      · rename_i e; subst e; exact absurd .ping hs
      · split
        · rename_i e; subst e; exact absurd .schema hs
        · rfl
    · split
      · rename_i e; subst e; exact absurd (.ping_n _) hs
      · split
        · rename_i e; obtain ⟨rfl, rfl⟩ := e; exact absurd .stop hs
        · rfl
    · split
      · rename_i e; subst e; exact absurd (.rgball ..) hs
      · split
        · rename_i e; obtain ⟨rfl, rfl⟩ := e; exact absurd (.start ..) hs
        · rfl
    · split
      · rename_i e; subst e; exact absurd (.rgb ..) hs
      · split
        · rename_i e; obtain ⟨rfl, rfl⟩ := e; exact absurd (.listen ..) hs
        · rfl
    · rfl
theorem bad_line {line : List Char} (h : BadColour line) : repl_line line = ([], .panicked) := by
  cases h with
  | rgb pos r g b h hn =>
    unfold repl_line; rw [(words_iff _ _).mp h]
    show arm_rgb pos r g b = _
    unfold arm_rgb
    split
    · rename_i e1 e2 e3 e4
      rcases hn with hn | hn | hn | hn
      · exact absurd ((parse_iff _ _).mp e1) (hn _)
      · exact absurd ((parse_iff _ _).mp e2) (hn _)
      · exact absurd ((parse_iff _ _).mp e3) (hn _)
      · exact absurd ((parse_iff _ _).mp e4) (hn _)
    · rfl
  | rgball r g b h hn =>
    unfold repl_line; rw [(words_iff _ _).mp h]
    show arm_rgball r g b = _
    unfold arm_rgball
    split
    · rename_i e2 e3 e4
      rcases hn with hn | hn | hn
      · exact absurd ((parse_iff _ _).mp e2) (hn _)
      · exact absurd ((parse_iff _ _).mp e3) (hn _)
      · exact absurd ((parse_iff _ _).mp e4) (hn _)
    · rfl

/-- What is returned to a program that then panics. -/
theorem returned_panics {b0 bn : Board} {term : List Term} {m : WbMethod} {k : ReplCont} (h : Status b0 term bn (.calling m k)) {o : WbOut}
    (ha : o ≠ .comms → bn.Answer m o) (hp : (repl_returned k o).2 = .panicked) :
    o = .comms ∨ ∃ pos r g b, m = .set_rgb_single pos r g b ∧ 24 ≤ pos.toNat ∧ o = .bad_position := by
  by_cases ho : o = .comms
  · exact .inl ho
  right
  have ha := ha ho
  cases k with
  | hello => obtain ⟨rfl, _⟩ := h; cases ha; cases hp
  | uid => obtain ⟨rfl, _⟩ := h; cases ha; cases hp
  | pinged => obtain ⟨_, _, _, _, _, _, _, _, n, rfl, _⟩ := h; cases ha; cases hp
  | colour =>
    obtain ⟨_, _, _, _, _, _, _, _, ⟨p, r, g, l, rfl⟩ | ⟨r, g, l, rfl⟩, _⟩ := h
    · cases ha with
      | set_one => cases hp
      | bad_position _ _ _ _ hge => exact ⟨_, _, _, _, rfl, hge, rfl⟩
    · cases ha; cases hp
  | listen dur => obtain ⟨_, _, _, _, _, _, _, _, i, r, rfl, _⟩ := h; cases ha; cases hp
  | listened => obtain ⟨_, _, _, _, _, _, rfl, _⟩ := h; cases ha; cases hp
  | started => obtain ⟨_, _, _, _, _, _, _, _, i, r, rfl, _⟩ := h; cases ha; cases hp
  | stopped => obtain ⟨_, _, _, _, _, _, _, _, rfl, _⟩ := h; cases ha; cases hp
  | schema => obtain ⟨_, _, _, _, _, _, _, _, rfl, _⟩ := h; cases ha; cases hp

/-! ### The invariant -/

/-- The program with the board. -/
def ReplInv (I : WbIcd) (U : UsbCfg WbVal E Unit WbCtx) (id : BitVec 64) (held : Nat → Bool) (ls : List (ULabel WbVal)) (ms : List WbMethod)
    (y : ReplSys E) : Prop :=
  OneByOne I U (wb_ctx id held) ls y.usb ms ∧
  match y.pc with
  | .panicked => True
  | .waiting m c k => ms[c]? = some m ∧ c + 1 = ms.length ∧
      Status (Board.dark id held) y.term ((ms.take c).foldl Board.after (Board.dark id held)) (.calling m k)
  | pc => AllBack y.usb ms ∧ Status (Board.dark id held) y.term (ms.foldl Board.after (Board.dark id held)) pc

theorem replInv_start (I : WbIcd) (U : UsbCfg WbVal E Unit WbCtx) (id : BitVec 64) (held : Nat → Bool) :
    ReplInv I U id held [] [] (ReplSys.start (wb_ctx id held) : ReplSys E) := by
  refine ⟨⟨rfl, by simp, ⟨rfl, by simp⟩, by simp, by simp⟩, ?_⟩
  exact ⟨fun c m h => by simp at h, rfl, rfl, rfl⟩

theorem replInv_other {I : WbIcd} {U : UsbCfg WbVal E Unit WbCtx} {id : BitVec 64} {held : Nat → Bool} {ls : List (ULabel WbVal)}
    {ms : List WbMethod} {y : ReplSys E} (h : ReplInv I U id held ls ms y) {l : ULabel WbVal} {u : UsbSys WbVal E Unit WbCtx}
    (hs : u_step U y.usb l = some u) (hu : WbUses I l) (hn : ∀ req resp body, l ≠ .client (.call_begin req resp body)) :
    ReplInv I U id held (ls ++ [l]) ms { y with usb := u } := by
  obtain ⟨h1, h2⟩ := h
  refine ⟨h1.other hs hu hn, ?_⟩
  obtain ⟨usb, pc, term⟩ := y
  have keep : AllBack usb ms → AllBack u ms := fun hb c m hm => returned_step hs (hb c m hm)
  cases pc with
  | panicked => trivial
  | waiting m c k => exact h2
  | _ => exact ⟨keep h2.1, h2.2⟩

theorem allows_cases {I : WbIcd} {pc pc' : ReplPc} {n : Nat} {l : ULabel WbVal} (h : repl_allows I pc n l = some pc') :
    (∃ m k, pc = .calling m k ∧ l = .client (.call_begin (m.req I) (m.resp I) m.body) ∧ pc' = .waiting m n k) ∨
    (pc' = pc ∧ WbUses I l ∧ WbListens I l ∧ (∀ req resp body, l ≠ .client (.call_begin req resp body)) ∧
      (∀ c, l ≠ .client (.call_drop c)) ∧ l ≠ .client .close ∧ l ≠ .client .drop_handles) := by
  cases l with
  | client l =>
    cases l with
    | call_begin req resp body =>
      simp only [repl_allows] at h
      split at h
      · split at h
        · rename_i m k e
          obtain ⟨rfl, rfl, rfl⟩ := e
          cases h
          exact .inl ⟨m, k, rfl, rfl, rfl⟩
        · cases h
      · cases h
    | sub_multi key d =>
      simp only [repl_allows] at h
      split at h
      · cases h
      · split at h
        · rename_i e
          cases h
          refine .inr ⟨rfl, trivial, ?_, nofun, nofun, nofun, nofun⟩
          rcases e with rfl | rfl
          · exact List.mem_cons_of_mem _ (List.mem_cons_of_mem _ (List.mem_cons_self ..))
          · exact List.mem_cons_self ..
        · cases h
    | call_begin_raw => cases h
    | call_drop => cases h
    | pub_begin => cases h
    | close => cases h
    | drop_handles => cases h
    | sub_excl => cases h
    | sub_repl => cases h
    | _ =>
      simp only [repl_allows] at h
      split at h
      · cases h
      · cases h
        exact .inr ⟨rfl, trivial, trivial, nofun, nofun, nofun, nofun⟩
  | app_publish key seq v =>
    cases v with
    | accel a =>
      simp only [repl_allows] at h
      split at h
      · rename_i e
        cases h
        exact .inr ⟨rfl, ⟨e, a, rfl⟩, trivial, nofun, nofun, nofun, nofun⟩
      · cases h
    | _ => cases h
  | _ =>
    cases h
    exact .inr ⟨rfl, trivial, trivial, nofun, nofun, nofun, nofun⟩

theorem foldl_take_snoc {ms : List WbMethod} {c : Nat} {m : WbMethod} (b : Board) (h : ms[c]? = some m) (hl : c + 1 = ms.length) :
    ms.foldl Board.after b = ((ms.take c).foldl Board.after b).after m := by
  have hlt := getElem?_lt h
  have e : ms = ms.take c ++ [m] := by
    have h1 := List.take_succ_eq_append_getElem hlt
    rw [hl, List.take_of_length_le (Nat.le_refl _)] at h1
    rw [(List.getElem?_eq_some_iff.mp h).2] at h1
    exact h1
  conv => lhs; rw [e]
  rw [List.foldl_append]; rfl

theorem comms_panics (k : ReplCont) : (repl_returned k .comms).2 = .panicked := by cases k <;> rfl

theorem replInv_step {I : WbIcd} {U : UsbCfg WbVal E Unit WbCtx} (S : WbSetup I U) {id : BitVec 64} {held : Nat → Bool} {ls : List (ULabel WbVal)}
    {ms : List WbMethod} {y y' : ReplSys E} (h : ReplInv I U id held ls ms y) {l : RLabel} (hs : repl_step I U y l = some y')
    (hlen : y.usb.sys.client.calls.length < 2 ^ 32) :
    (∃ l', l = .sys l' ∧ ∃ ms', ReplInv I U id held (ls ++ [l']) ms' y') ∨ ((∀ l', l ≠ .sys l') ∧ ReplInv I U id held ls ms y') := by
  obtain ⟨usb, pc, term⟩ := y
  cases l with
  | sys l =>
    left
    refine ⟨l, rfl, ?_⟩
    simp only [repl_step] at hs
    split at hs
    · cases hs
    · rename_i pc' hp
      split at hs
      · cases hs
      · rename_i u hu
        cases hs
        rcases allows_cases hp with ⟨m, k, rfl, rfl, rfl⟩ | ⟨rfl, h1, h2, h3, h4, h5⟩
        · obtain ⟨h1, hb, hst⟩ := h
          refine ⟨ms ++ [m], h1.call hb hu, ?_⟩
          dsimp only
          rw [← h1.made.len]
          refine ⟨by simp, by simp, ?_⟩
          rw [List.take_left' rfl]
          exact hst
        · exact ⟨ms, replInv_other h hu h1 h3⟩
  | line line =>
    refine .inr ⟨nofun, ?_⟩
    simp only [repl_step] at hs
    split at hs
    · cases hs
      obtain ⟨h1, hb, hst⟩ := h
      refine ⟨h1, ?_⟩
      have := status_line hst line
      dsimp only
      revert this
      have hc := line_case line
      generalize repl_line line = x at hc ⊢
      intro this
      cases hc with
      | bad => trivial
      | _ => exact ⟨hb, this⟩
    · cases hs
  | returned =>
    refine .inr ⟨nofun, ?_⟩
    simp only [repl_step] at hs
    split at hs
    · rename_i m c k
      split at hs
      · cases hs
      · rename_i cl hc
        split at hs
        · rename_i r hr
          cases hs
          obtain ⟨h1, hm, hcl, hst⟩ := h
          have hb := h1.board S (by rw [h1.made.len]; exact hlen)
          have hans := hb.2 c cl m r hc hm hr
          have := status_returned hst hans
          rw [← foldl_take_snoc _ hm hcl] at this
          refine ⟨h1, ?_⟩
          have hback : wb_result m r ≠ .comms → AllBack usb ms := by
            intro hne c' m' hm'
            by_cases e : c' + 1 < ms.length
            · exact h1.back c' m' e hm'
            · have : c' < ms.length := getElem?_lt hm'
              have : c' = c := by omega
              subst this
              rw [hm] at hm'
              cases hm'
              exact ⟨cl, r, hc, hr, hne⟩
          dsimp only at this ⊢
          by_cases hne : wb_result m r = .comms
          · rw [hne, comms_panics]
            trivial
          · have hb := hback hne
            revert this
            generalize wb_result m r = o
            cases k <;> cases o <;> (intro this; first | trivial | exact ⟨hb, this⟩)
        · cases hs
    · cases hs
  | subscribed ok =>
    refine .inr ⟨nofun, ?_⟩
    simp only [repl_step] at hs
    split at hs
    · rename_i i r dur
      cases hs
      obtain ⟨h1, hb, term0, b, line, ps, g1, g2, g3, g4, g5⟩ := h
      refine ⟨h1, ?_⟩
      cases ok with
      | false => trivial
      | true => exact ⟨hb, term0, b, line, ps, g1, g2, g3, g4, i, r, rfl, g5⟩
    · cases hs
      cases ok with
      | false => exact ⟨h.1, trivial⟩
      | true => exact h
    · cases hs
  | clock el =>
    refine .inr ⟨nofun, ?_⟩
    simp only [repl_step] at hs
    split at hs
    · rename_i dur
      cases hs
      obtain ⟨h1, hb, term0, b, line, ps, g1, g2, accs, i, r, g3, g4, g5⟩ := h
      refine ⟨h1, ?_⟩
      dsimp only
      split
      · rename_i h
        split at h <;> cases h
      · rename_i h
        split at h <;> cases h
      · refine ⟨hb, ?_⟩
        split
        · exact ⟨term0, b, line, ps, g1, g2, accs, i, r, g3, g4, g5⟩
        · exact ⟨term0, b, line, ps, g1, g2, rfl, accs, i, r, _, g3, g4, g5⟩
    · cases hs
  | received r =>
    refine .inr ⟨nofun, ?_⟩
    simp only [repl_step] at hs
    split at hs
    · rename_i dur a
      cases hs
      obtain ⟨h1, hb, term0, b, line, ps, g1, g2, accs, i, r, g3, g4, g5⟩ := h
      refine ⟨h1, hb, term0, b, line, ps ++ [.acc a], g1, ?_, accs ++ [a], i, r, ?_, g4, g5⟩
      · dsimp only at g2 ⊢
        rw [g2]; simp
      · rw [g3]; simp
    · cases hs
      exact ⟨h.1, trivial⟩
    · cases hs
  | reported r =>
    refine .inr ⟨nofun, ?_⟩
    simp only [repl_step] at hs
    split at hs
    · rename_i rep
      cases hs
      obtain ⟨h1, hb, term0, b, line, ps, g1, g2, rfl, g4, g5⟩ := h
      refine ⟨h1, hb, ?_⟩
      dsimp only at g2 g4 ⊢
      rw [g2, g4, List.append_assoc]
      exact .turn g1 (g5 rep)
    · cases hs
      exact ⟨h.1, trivial⟩
    · cases hs

/-! ### Runs -/

/-- The steps of the rest of the system. -/
def repl_labels (ls : List RLabel) : List (ULabel WbVal) := ls.filterMap fun | .sys l => some l | _ => none

theorem repl_step_calls {I : WbIcd} {U : UsbCfg WbVal E Unit WbCtx} {y y' : ReplSys E} {l : RLabel} (hs : repl_step I U y l = some y') :
    (∃ l', l = .sys l' ∧ u_step U y.usb l' = some y'.usb ∧ ∃ pc, repl_allows I y.pc y.usb.sys.client.calls.length l' = some pc ∧ y'.pc = pc ∧
      y'.term = y.term) ∨
    ((∀ l', l ≠ .sys l') ∧ y'.usb = y.usb) := by
  cases l with
  | sys l =>
    simp only [repl_step] at hs
    split at hs
    · cases hs
    · rename_i pc hp
      split at hs
      · cases hs
      · rename_i u hu
        cases hs
        exact .inl ⟨l, rfl, hu, pc, hp, rfl, rfl⟩
  | _ =>
    right
    refine ⟨nofun, ?_⟩
    simp only [repl_step] at hs
    repeat' split at hs
    all_goals first
      | (cases hs; done)
      | (cases hs; rfl)

theorem repl_step_grow {I : WbIcd} {U : UsbCfg WbVal E Unit WbCtx} {y y' : ReplSys E} {l : RLabel} (hs : repl_step I U y l = some y') :
    y.usb.sys.client.calls.length ≤ y'.usb.sys.client.calls.length := by
  rcases repl_step_calls hs with ⟨l', rfl, hu, _⟩ | ⟨_, e⟩
  · rcases u_step_client hu with ⟨l'', rfl, hc⟩ | ⟨_, e⟩
    · exact calls_grow hc
    · rw [e]; exact Nat.le_refl _
  · rw [e]; exact Nat.le_refl _

theorem repl_run_grow {I : WbIcd} {U : UsbCfg WbVal E Unit WbCtx} : ∀ (ls : List RLabel) {y y' : ReplSys E}, repl_run I U ls y = some y' →
    y.usb.sys.client.calls.length ≤ y'.usb.sys.client.calls.length := by
  intro ls
  induction ls with
  | nil => intro y y' h; cases h; exact Nat.le_refl _
  | cons l ls ih =>
    intro y y' h
    simp only [repl_run] at h
    split at h
    · rename_i y1 h1
      exact Nat.le_trans (repl_step_grow h1) (ih h)
    · cases h

theorem replInv_run {I : WbIcd} {U : UsbCfg WbVal E Unit WbCtx} (S : WbSetup I U) {id : BitVec 64} {held : Nat → Bool} :
    ∀ (rs : List RLabel) {y y' : ReplSys E} {ls : List (ULabel WbVal)} {ms : List WbMethod}, ReplInv I U id held ls ms y → repl_run I U rs y = some y' →
    y'.usb.sys.client.calls.length < 2 ^ 32 → ∃ ms', ReplInv I U id held (ls ++ repl_labels rs) ms' y' := by
  intro rs
  induction rs with
  | nil =>
    intro y y' ls ms h hr _
    cases hr
    exact ⟨ms, by simpa [repl_labels] using h⟩
  | cons l rs ih =>
    intro y y' ls ms h hr hlen
    simp only [repl_run] at hr
    split at hr
    · rename_i y1 h1
      have hlt : y.usb.sys.client.calls.length < 2 ^ 32 :=
        Nat.lt_of_le_of_lt (Nat.le_trans (repl_step_grow h1) (repl_run_grow rs hr)) hlen
      rcases replInv_step S h h1 hlt with ⟨l', rfl, ms', h'⟩ | h'
      · obtain ⟨ms2, h2⟩ := ih h' hr hlen
        exact ⟨ms2, by simpa [repl_labels] using h2⟩
      · obtain ⟨ms2, h2⟩ := ih h'.2 hr hlen
        refine ⟨ms2, ?_⟩
        have : repl_labels (l :: rs) = repl_labels rs := by
          cases l with
          | sys l => exact absurd rfl (h'.1 l)
          | _ => rfl
        rw [this]; exact h2
    · cases hr

/-! ### No call is dropped -/

theorem step_undropped {cfg : Cfg} {s s' : Client} {l : Label} (h : step cfg s l = some s') (hn : ∀ c, l ≠ .call_drop c)
    (h0 : ∀ cl ∈ s.calls, cl.phase ≠ .dropped) : ∀ cl ∈ s'.calls, cl.phase ≠ .dropped := by
  have upd : ∀ (c : Nat) (x : Call), x.phase ≠ .dropped → s'.calls = s.calls.set c x → ∀ cl ∈ s'.calls, cl.phase ≠ .dropped := by
    intro c x hx e cl hcl
    rw [e] at hcl
    rcases List.mem_or_eq_of_mem_set hcl with h | rfl
    · exact h0 cl h
    · exact hx
  have app : ∀ x : Call, x.phase ≠ .dropped → s'.calls = s.calls ++ [x] → ∀ cl ∈ s'.calls, cl.phase ≠ .dropped := by
    intro x hx e cl hcl
    rw [e] at hcl
    rcases List.mem_append.mp hcl with h | h
    · exact h0 cl h
    · rw [List.mem_singleton.mp h]; exact hx
  cases l with
  | call_drop c => exact absurd rfl (hn c)
  | call_begin req resp body =>
    simp only [step] at h
    split at h
    · cases h; exact app _ (by intro e; cases e) rfl
    · cases h
  | call_begin_raw rqst resp =>
    simp only [step] at h
    split at h
    · cases h; exact app _ (by intro e; cases e) rfl
    · cases h
  | call_reg_ok c =>
    simp only [step] at h
    split at h
    · rename_i cl hc
      split at h
      · rename_i k _
        cases h
        simp only [call_reg_ok] at upd ⊢
        cases e : map_enqueue s.map ⟨c, false⟩ (cl.ok_hdr k) with
        | none => simp only [e] at upd; exact upd c _ (by intro e; cases e) rfl
        | some m => simp only [e] at upd; exact upd c _ (by intro e; cases e) rfl
      · cases h
    · cases h
  | call_reg_err c =>
    simp only [step] at h
    split at h
    · rename_i cl hc
      split at h
      · rename_i k _
        cases h
        simp only [call_reg_err] at upd ⊢
        cases e : map_enqueue s.map ⟨c, true⟩ (cl.err_hdr cfg k) with
        | none => simp only [e] at upd; exact upd c _ (by intro e; cases e) rfl
        | some m => simp only [e] at upd; exact upd c _ (by intro e; cases e) rfl
      · cases h
    · cases h
  | call_kind | call_send | call_closed | call_ok | call_err =>
    simp only [step, call_send, call_take] at h
    repeat' split at h
    all_goals first
      | (cases h; done)
      | (cases h; refine upd _ _ ?_ rfl; intro e; cases e)
  | _ =>
    simp only [step, publish_raw_begin, pub_send,
      out_poll, out_recv, out_done, in_poll, in_recv, in_lookup, in_full_send, in_full_timeout, after_lookup, in_wake] at h
    repeat' split at h
    all_goals first
      | (cases h; done)
      | (cases h; exact h0)

theorem u_step_undropped {U : UsbCfg WbVal E Unit WbCtx} {u u' : UsbSys WbVal E Unit WbCtx} {l : ULabel WbVal} (h : u_step U u l = some u')
    (hn : ∀ c, l ≠ .client (.call_drop c)) (h0 : ∀ cl ∈ u.sys.client.calls, cl.phase ≠ .dropped) :
    ∀ cl ∈ u'.sys.client.calls, cl.phase ≠ .dropped := by
  rcases u_step_client h with ⟨l', rfl, hc⟩ | ⟨_, e⟩
  · exact step_undropped hc (fun c e => hn c (by rw [e])) h0
  · rw [e]; exact h0

theorem repl_run_labels {I : WbIcd} {U : UsbCfg WbVal E Unit WbCtx} : ∀ (rs : List RLabel) {y y' : ReplSys E}, repl_run I U rs y = some y' →
    u_run U (repl_labels rs) y.usb = some y'.usb ∧ (∀ l ∈ repl_labels rs, WbUses I l ∧ WbListens I l) ∧
    ((∀ cl ∈ y.usb.sys.client.calls, cl.phase ≠ .dropped) → ∀ cl ∈ y'.usb.sys.client.calls, cl.phase ≠ .dropped) := by
  intro rs
  induction rs with
  | nil => intro y y' h; cases h; exact ⟨rfl, by simp [repl_labels], fun h => h⟩
  | cons l rs ih =>
    intro y y' h
    simp only [repl_run] at h
    split at h
    · rename_i y1 h1
      obtain ⟨i1, i2, i3⟩ := ih h
      rcases repl_step_calls h1 with ⟨l', rfl, hu, pc, hp, _⟩ | ⟨hn, e⟩
      · have e : repl_labels (.sys l' :: rs) = l' :: repl_labels rs := rfl
        rw [e]
        rcases allows_cases hp with ⟨m, k, _, rfl, _⟩ | ⟨_, g1, g2, _, g4, _⟩
        · refine ⟨by simp only [u_run, hu]; exact i1, ?_, fun h0 => i3 (u_step_undropped hu nofun h0)⟩
          intro l hl
          rcases List.mem_cons.mp hl with rfl | hl
          · exact ⟨⟨m, rfl, rfl, rfl⟩, trivial⟩
          · exact i2 l hl
        · refine ⟨by simp only [u_run, hu]; exact i1, ?_, fun h0 => i3 (u_step_undropped hu g4 h0)⟩
          intro l hl
          rcases List.mem_cons.mp hl with rfl | hl
          · exact ⟨g1, g2⟩
          · exact i2 l hl
      · have e' : repl_labels (l :: rs) = repl_labels rs := by
          cases l with
          | sys l => exact absurd rfl (hn l)
          | _ => rfl
        rw [e', ← e]
        exact ⟨i1, i2, fun h0 => i3 h0⟩
    · cases h

/-- What host, cable and board do by themselves the program lets them do. -/
theorem own_allowed {I : WbIcd} {pc : ReplPc} (hp : pc ≠ .panicked) {n : Nat} {u : UsbSys WbVal E Unit WbCtx} {l : ULabel WbVal} (ho : UsbOwn u l) :
    repl_allows I pc n l = some pc := by
  cases l with
  | client l =>
    cases l
    all_goals first
      | exact (ho : False).elim
      | (cases pc <;> first | rfl | exact absurd rfl hp)
  | app_publish => exact (ho : False).elim
  | _ => rfl

theorem repl_own_run {I : WbIcd} {U : UsbCfg WbVal E Unit WbCtx} {u v : UsbSys WbVal E Unit WbCtx} {own : List (ULabel WbVal)}
    (ho : UsbOwnRun U u own v) {pc : ReplPc} (hp : pc ≠ .panicked) (term : List Term) :
    repl_run I U (own.map .sys) ⟨u, pc, term⟩ = some ⟨v, pc, term⟩ := by
  induction ho with
  | nil => rfl
  | cons ho h hr ih =>
    simp only [List.map_cons, repl_run, repl_step, own_allowed hp ho, h]
    exact ih

theorem repl_run_append {I : WbIcd} {U : UsbCfg WbVal E Unit WbCtx} : ∀ (rs : List RLabel) {rs' : List RLabel} {y y' y'' : ReplSys E},
    repl_run I U rs y = some y' → repl_run I U rs' y' = some y'' → repl_run I U (rs ++ rs') y = some y'' := by
  intro rs
  induction rs with
  | nil => intro rs' y y' y'' h h'; cases h; exact h'
  | cons l rs ih =>
    intro rs' y y' y'' h h'
    simp only [repl_run, List.cons_append] at h ⊢
    split at h
    · rename_i y1 h1
      exact ih h h'
    · cases h

theorem repl_run_none {I : WbIcd} {U : UsbCfg WbVal E Unit WbCtx} : ∀ (rs : List RLabel) {rs' : List RLabel} {y y' : ReplSys E},
    repl_run I U rs y = some y' → repl_run I U rs' y' = none → repl_run I U (rs ++ rs') y = none := by
  intro rs
  induction rs with
  | nil => intro rs' y y' h h'; cases h; exact h'
  | cons l rs ih =>
    intro rs' y y' h h'
    simp only [repl_run, List.cons_append] at h ⊢
    split at h
    · exact ih h h'
    · cases h

end PRpc
