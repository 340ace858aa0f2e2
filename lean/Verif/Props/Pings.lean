import Verif.Lemmas.PingsLive
import Verif.Props.WorkbookLive
/-! The first example of the workbook, ten pings: C96. -/

namespace PRpc.Props

open Spec

variable {E : Type}

/-! ### The firmware -/

/-- The application with the standard endpoints in its list. -/
def p1_full (E : Type) (I : WbIcd) : App (BitVec 32) E Unit Unit := { p1_app E I with endpoint_list := (wb_full E I).endpoint_list }

theorem p1_dispatches {I : WbIcd} {D : Dispatcher (BitVec 32) E Unit Unit} (h : define_dispatch (p1_app E I) = .ok D)
    (ha : WbApart I (keyLen D.n)) : Dispatches (p1_full E I) D := by
  obtain ⟨_, h1, h2, h3⟩ := define_dispatch_ok h
  refine dispatches_of ?_ ⟨?_, ?_, h1, h2, h3⟩
  · show DistinctAt _ ((wb_full E I).endpoint_list.endpoints.map (·.req) ++ _)
    rw [wb_reqs]
    exact (List.append_nil _).symm ▸ ha.requests
  · intro e he
    obtain ⟨h, hh, rfl⟩ := List.mem_map.mp he
    cases List.mem_singleton.mp hh
    exact ⟨by simp [p1_full, wb_full], by simp [p1_full, wb_full]⟩
  · intro k hk
    cases hk

theorem p1_decode {I : WbIcd} {D : Dispatcher (BitVec 32) E Unit Unit} (h : define_dispatch (p1_app E I) = .ok D) :
    D.ping_decode = from_bytes take_u32 := by
  obtain ⟨hsz, _⟩ := define_dispatch_ok h
  unfold define_dispatch at h
  rw [hsz] at h
  simp only [Exec.ok_bind, merge_types_eq] at h
  cases hk : kind_of_sz (keyLen D.n) with
  | panic => rw [hk] at h; simp at h
  | ok n =>
    rw [hk] at h
    simp only [Exec.ok_bind, Exec.ok.injEq] at h
    rw [← h]
    rfl

theorem p1_declared (E : Type) (I : WbIcd) (n : VarKeyKind) : Declared (p1_full E I) n where
  ping := (wb_declared E I n).ping
  schemas := (wb_declared E I n).schemas
  schema_topic := (wb_declared E I n).schema_topic
  names := List.nodup_cons.mpr ⟨nofun, List.nodup_nil⟩
  sends := fun t ht => by cases ht

theorem p1_setup {I : WbIcd} {U : UsbCfg (BitVec 32) E Unit Unit} (hU : UsbSound U) (hD : define_dispatch (p1_app E I) = .ok U.S.disp)
    (hkk : U.S.kkind = U.S.disp.n) (ha : WbApart I (keyLen U.S.disp.n)) (henc : ∀ n, U.S.enc (.val n) = enc_u32 n)
    (hsize : ∀ b, (∀ v, b ≠ .val v) → (U.S.enc b).length ≤ 1000) : PgSetup (p1_full E I) U (fun n => n) where
  sound := hU
  disp := p1_dispatches hD ha
  decl := p1_declared E I _
  kkind := hkk
  apart := by
    refine apart_of_distinct ?_
    show DistinctAt _ ((wb_full E I).endpoint_list.endpoints.map (·.resp) ++ (wb_full E I).topic_out_list.topics.map (·.key))
    rw [wb_answers, hkk]
    exact distinct_tail ha.answers
  resp_err := by rw [hkk]; exact (wb_error_apart (E := E) ha).1
  keys := fun e => ha.requests 1 0 (by simp) (by simp) (by decide)
    (by show short _ I.std.schemas_req = short _ I.std.ping_req; rw [show I.std.schemas_req = I.std.ping_req from e])
  dec := by
    rw [p1_decode hD]
    funext b
    show from_bytes take_u32 b = _
    cases from_bytes take_u32 b <;> rfl
  enc := henc
  small := by
    intro s o _ b hb
    have h1 := isFrame_len hb
    have h2 : (U.S.enc o.frame.body).length ≤ 1000 := by
      cases h : o.frame.body with
      | val v => rw [henc]; have := (enc_u32_len v).2; omega
      | _ => exact hsize _ (fun v e => by cases e)
    omega

theorem p1_fits {I : WbIcd} {S : SysCfg (BitVec 32) E Unit Unit} (hsend : ∀ log f, S.env.send log f = none) (herr : S.cfg.err_key = I.std.error)
    (hcount : S.env.overflow_checks = false ∨ (schemaMsgs S.disp.device_map).length ≤ 65535) (ha : WbApart I (keyLen S.kkind)) :
    Fits (p1_full E I) S where
  sends := hsend
  err_key := herr
  apart := by
    refine apart_of_distinct ?_
    show DistinctAt _ ((wb_full E I).endpoint_list.endpoints.map (·.resp) ++ (wb_full E I).topic_out_list.topics.map (·.key))
    rw [wb_answers]
    exact distinct_tail ha.answers
  resp_err := (wb_error_apart (E := E) ha).1
  topic_err := (wb_error_apart (E := E) ha).2
  handled := fun h hh => by
    cases List.mem_singleton.mp hh
    exact ⟨_, List.mem_append_right _ (List.mem_cons_self ..), rfl, rfl⟩
  counters := hcount

/-! ### An example -/

/-- The dispatcher of the firmware with the keys of `exIcd`. -/
def exPgDisp : Dispatcher (BitVec 32) WireTxErrorKind Unit Unit where
  std := exStd
  n := .Key1
  eps := (p1_app WireTxErrorKind exIcd).eps
  tps := []
  ping_decode := from_bytes take_u32
  spawn_ctxt := fun c => ((), c)
  device_map := ⟨[], exIcd.endpoint_list.endpoints, [], exIcd.topics_out_list.topics, .Key1⟩

theorem exPg_ok : define_dispatch (p1_app WireTxErrorKind exIcd) = .ok exPgDisp := by
  have h : needed_sz (p1_app WireTxErrorKind exIcd).sizer = .ok 1 := by decide +kernel
  unfold define_dispatch
  rw [h]
  simp only [Exec.ok_bind, kind_of_sz, if_true, merge_types_eq]
  rfl

/-- The bytes of what is sent; those of the standard messages do not matter here. -/
def exPgEnc : Body (BitVec 32) → Bytes
  | .val v => enc_u32 v
  | _ => [0]

def exPg : UsbCfg (BitVec 32) WireTxErrorKind Unit Unit :=
  ⟨⟨⟨.Seq4, exKey 0xE0#8, 8, false⟩, exPgDisp, .Key1, ⟨fun _ _ => none, fun _ _ => true, true⟩, id, exPgEnc, fun _ _ => 0⟩, 1024, false, 1⟩

theorem exPg_size : ∀ b, (∀ v, b ≠ .val v) → (exPg.S.enc b).length ≤ 1000 := by
  intro b hb
  cases b with
  | val v => exact absurd rfl (hb v)
  | _ => exact Nat.le_of_ble_eq_true rfl

theorem exPg_ready : UsbSound exPg ∧ define_dispatch (p1_app WireTxErrorKind exIcd) = .ok exPg.S.disp ∧ exPg.S.kkind = exPg.S.disp.n ∧
    WbApart exIcd (keyLen exPg.S.disp.n) ∧ (∀ n, exPg.S.enc (.val n) = enc_u32 n) ∧ (∀ b, (∀ v, b ≠ .val v) → (exPg.S.enc b).length ≤ 1000) ∧
    (∀ log f, exPg.S.env.send log f = none) ∧ exPg.S.cfg.err_key = exIcd.std.error ∧ 0 < exPg.S.cfg.outgoing_depth ∧
    (exPg.S.env.overflow_checks = false ∨ (schemaMsgs exPg.S.disp.device_map).length ≤ 65535) :=
  ⟨⟨⟨16, rfl⟩, by decide, by decide⟩, exPg_ok, rfl, exWb_apart, fun _ => rfl, exPg_size, fun _ _ => rfl, rfl, by decide, .inr (by decide)⟩

/-- The request of round `c` is made and sent. -/
def exPgAsk {V : Type} (c : Nat) : List (PgLabel V) :=
  .tick :: ([.client (.call_begin exStd.ping_req exStd.ping_resp (enc_u32 (BitVec.ofNat 32 c))), .client (.call_kind c), .client (.call_reg_ok c),
    .client (.call_reg_err c), .client (.call_send c)] : List (ULabel V)).map .sys

/-- A whole round. -/
def exPgRound {V : Type} (c : Nat) : List (PgLabel V) :=
  exPgAsk c ++ ([.client .out_poll, .client .out_recv, .host_packet, .dev_read, .client (.out_done true),
    .client .out_yield, .flush, .dev_write .ok, .client .in_poll, .client (.in_recv (some [0x20, 1, BitVec.ofNat 8 c, 0, 0, 0, BitVec.ofNat 8 c])),
    .client .in_lookup, .client (.in_wake (some ⟨c, false⟩)), .client .in_yield, .client (.call_ok c)] : List (ULabel V)).map .sys ++ [.returned]

abbrev exPgRuns (ls : List (PgLabel (BitVec 32))) : Option (PgSys (BitVec 32) WireTxErrorKind Unit Unit) := pg_run exIcd.std exPg ls (PgSys.start ())

theorem exPg_quiet {ls : List (PgLabel (BitVec 32))}
    (h : (ls.all fun l => match l with | .sys (.app_publish _ _ _) => false | _ => true) = true) : PgUsed (p1_full WireTxErrorKind exIcd) ls := by
  intro key seq v hm
  exact absurd (List.all_eq_true.mp h _ hm) nofun

/-! ### What is shown -/

/-- C96: whatever board answers, the host has at every moment printed the rounds it has been through: "Pinging with 0… got 0!", then 1, and so on in order, each answer the
number asked with; "App is done" only after all ten, and "Client is closed" at most once and last.  The `assert_eq!` never fails. -/
theorem c96_any_board {V SC Ctx : Type} (a : App V E SC Ctx) (U : UsbCfg V E SC Ctx) (hU : UsbSound U) (hD : Dispatches a U.S.disp)
    (hdecl : Declared a U.S.kkind) (hkk : U.S.kkind = U.S.disp.n) (hap : KeysApart a U.S)
    (herr : ∀ r ∈ a.endpoint_list.endpoints, short (keyLen U.S.kkind) r.resp ≠ short (keyLen U.S.kkind) a.std.error)
    (hkeys : a.std.schemas_req ≠ a.std.ping_req) {val : BitVec 32 → V} (hdec : U.S.disp.ping_decode = fun b => (from_bytes take_u32 b).map val)
    (henc : ∀ n, U.S.enc (.val (val n)) = enc_u32 n) (hsmall : ∀ s, Small U.S s) {ls : List (PgLabel V)} (hu : PgUsed a ls) {c0 : Ctx}
    {y : PgSys V E SC Ctx} (hrun : pg_run a.std U ls (PgSys.start c0) = some y) : PgShows y.pc y.term := by
  obtain ⟨us, inv⟩ := pg_inv_run (val := val) ⟨hU, hD, hdecl, hkk, hap, herr, hkeys, hdec, henc, hsmall⟩ (pgInv_start a U c0) hrun hu
  exact inv.shows

/-- It applies to the board of C89, which runs the firmware comms-02: one round. -/
example : Dispatches (wb_full WireTxErrorKind exIcd) (exWb2 true).S.disp ∧ Declared (wb_full WireTxErrorKind exIcd) (exWb2 true).S.kkind ∧
    KeysApart (wb_full WireTxErrorKind exIcd) (exWb2 true).S ∧
    ((exWb2 true).S.disp.ping_decode = fun b => (from_bytes take_u32 b).map .u32) ∧ (∀ n, (exWb2 true).S.enc (.val (.u32 n)) = enc_u32 n) ∧
    (∀ s, Small (exWb2 true).S s) ∧
    (pg_run exIcd.std (exWb2 true) (exPgRound 0) (PgSys.start (wb_ctx 7 fun _ => false))).map (fun y => (y.pc, y.term)) = some (.ticking 1, rounds 1) := by
  obtain ⟨_, hD, _, ha, _⟩ := exWb2_ready true
  exact ⟨wb_dispatches hD ha, wb_declared _ _ _, wb_keysApart ha, rfl, fun _ => rfl, wb_small (fun _ => rfl) exWb2_size, by decide +kernel⟩

/-- C96, with the firmware of the example. -/
theorem c96_shown (I : WbIcd) (U : UsbCfg (BitVec 32) E Unit Unit) (hU : UsbSound U) (hD : define_dispatch (p1_app E I) = .ok U.S.disp)
    (hkk : U.S.kkind = U.S.disp.n) (ha : WbApart I (keyLen U.S.disp.n)) (henc : ∀ n, U.S.enc (.val n) = enc_u32 n)
    (hsize : ∀ b, (∀ v, b ≠ .val v) → (U.S.enc b).length ≤ 1000) {ls : List (PgLabel (BitVec 32))} (hu : PgUsed (p1_full E I) ls)
    {y : PgSys (BitVec 32) E Unit Unit} (hrun : pg_run I.std U ls (PgSys.start ()) = some y) : PgShows y.pc y.term := by
  obtain ⟨us, inv⟩ := pg_inv_run (p1_setup hU hD hkk ha henc hsize) (pgInv_start (p1_full E I) U ()) hrun hu
  exact inv.shows

/-- Two rounds, and the ten of the program. -/
example : (∃ y, exPgRuns (exPgRound 0 ++ exPgRound 1) = some y ∧ y.pc = .ticking 2 ∧
      y.term = [.pinging 0, .got 0, .pinging 1, .got 1] ∧ y.term = rounds 2) ∧
    ∃ y, exPgRuns ((List.range 10).flatMap exPgRound) = some y ∧ y.pc = .done ∧ y.term = rounds 10 ++ [.done] ∧
      PgUsed (p1_full WireTxErrorKind exIcd) ((List.range 10).flatMap exPgRound) := by
  constructor
  · have h : (exPgRuns (exPgRound 0 ++ exPgRound 1)).map (fun y => (y.pc, y.term)) = some (.ticking 2, [.pinging 0, .got 0, .pinging 1, .got 1]) := by
      decide +kernel
    obtain ⟨y, h1, h2⟩ := Option.map_eq_some_iff.mp h
    simp only [Prod.mk.injEq] at h2
    exact ⟨y, h1, h2.1, h2.2, h2.2⟩
  · have h : (exPgRuns ((List.range 10).flatMap exPgRound)).map (fun y => (y.pc, y.term)) = some (.done, rounds 10 ++ [.done]) := by decide +kernel
    obtain ⟨y, h1, h2⟩ := Option.map_eq_some_iff.mp h
    simp only [Prod.mk.injEq] at h2
    exact ⟨y, h1, h2.1, h2.2, exPg_quiet (by decide +kernel)⟩

/-! ### The end -/

theorem pg_fine_run {V SC Ctx : Type} {a : App V E SC Ctx} {U : UsbCfg V E SC Ctx} {val : BitVec 32 → V} (S : PgSetup a U val) (hF : Fits a U.S) {c0 : Ctx}
    {ls : List (PgLabel V)} : ∀ {y y' : PgSys V E SC Ctx} {us : List (ULabel V)}, PgInv a U c0 y us → pg_run a.std U ls y = some y' → PgUsed a ls →
    (y.usb.sys.client.stopped = false → y.pc ≠ .unwrapped ∧ y.pc ≠ .closed) → y'.usb.sys.client.stopped = false → y'.pc ≠ .unwrapped ∧ y'.pc ≠ .closed := by
  induction ls with
  | nil => intro y y' us inv h _ h0 hst; cases h; exact h0 hst
  | cons l ls ih =>
    intro y y' us inv h hu h0 hst
    obtain ⟨y1, hs, hr⟩ := pg_run_cons h
    obtain ⟨us', inv'⟩ := pg_inv_step S inv hs (fun key seq v e => hu key seq v (by rw [e]; exact List.mem_cons_self ..))
    exact ih inv' hr (fun key seq v hm => hu key seq v (List.mem_cons_of_mem _ hm)) (pg_fine_step S hF inv hs h0) hst

theorem pg_own_ends {V SC Ctx : Type} {a : App V E SC Ctx} {U : UsbCfg V E SC Ctx} {val : BitVec 32 → V} (S : PgSetup a U val) (hF : Fits a U.S)
    (hd : 0 < U.S.cfg.outgoing_depth) {c0 : Ctx} {y z : PgSys V E SC Ctx} {own : List (PgLabel V)} (ho : PgOwnRun a.std U y own z) :
    ∀ {us : List (ULabel V)}, PgInv a U c0 y us → y.usb.sys.client.stopped = false → y.pc ≠ .unwrapped ∧ y.pc ≠ .closed →
    PgStuck a.std U z → z.pc = .done ∧ z.term = rounds 10 ++ [.done] := by
  induction ho with
  | nil y =>
    intro us inv hst hf hs
    have hl := pg_stuck_over S hF hd inv hst hs
    have hsh := inv.shows
    revert hsh hl
    obtain ⟨f1, f2⟩ := hf
    revert f1 f2
    generalize y.term = t
    generalize y.pc = pc
    intro f1 f2 hl hsh
    cases hsh with
    | done => exact ⟨rfl, rfl⟩
    | fails => exact absurd rfl f1
    | closed => exact absurd rfl f2
    | closed_asking => exact absurd rfl f2
    | _ => cases hl
  | cons ho h _ ih =>
    intro us inv hst hf hs
    obtain ⟨us', inv'⟩ := pg_inv_step S inv h (pg_own_used ho)
    have hst' := pg_own_stopped ho h hst inv.kept.1
    exact ih inv' hst' (pg_fine_step S hF inv h (fun _ => hf) hst') hs

/-- C96: if the board's sends succeed and the connection is not lost, the program gets through.  Wherever host, cable and board, left to themselves, come
to rest, it has printed all ten rounds and "App is done". -/
theorem c96_ends (I : WbIcd) (U : UsbCfg (BitVec 32) E Unit Unit) (hU : UsbSound U) (hD : define_dispatch (p1_app E I) = .ok U.S.disp)
    (hkk : U.S.kkind = U.S.disp.n) (ha : WbApart I (keyLen U.S.disp.n)) (henc : ∀ n, U.S.enc (.val n) = enc_u32 n)
    (hsize : ∀ b, (∀ v, b ≠ .val v) → (U.S.enc b).length ≤ 1000) (hsend : ∀ log f, U.S.env.send log f = none)
    (herr : U.S.cfg.err_key = I.std.error) (hdepth : 0 < U.S.cfg.outgoing_depth)
    (hcount : U.S.env.overflow_checks = false ∨ (schemaMsgs U.S.disp.device_map).length ≤ 65535)
    {ls : List (PgLabel (BitVec 32))} (hu : PgUsed (p1_full E I) ls) {y : PgSys (BitVec 32) E Unit Unit}
    (hrun : pg_run I.std U ls (PgSys.start ()) = some y) (hopen : y.usb.sys.client.stopped = false)
    {own : List (PgLabel (BitVec 32))} {z : PgSys (BitVec 32) E Unit Unit} (ho : PgOwnRun I.std U y own z) (hstuck : PgStuck I.std U z) :
    z.pc = .done ∧ z.term = rounds 10 ++ [.done] := by
  have S := p1_setup hU hD hkk ha henc hsize
  have hF : Fits (p1_full E I) U.S := p1_fits hsend herr hcount (by rw [hkk]; exact ha)
  obtain ⟨us, inv⟩ := pg_inv_run S (pgInv_start (p1_full E I) U ()) hrun hu
  exact pg_own_ends S hF hdepth ho inv hopen (pg_fine_run S hF (pgInv_start (p1_full E I) U ()) hrun hu (fun _ => ⟨nofun, nofun⟩) hopen) hstuck

/-- C96: and to rest they come, after finitely many steps however these are ordered. -/
theorem c96_terminates (I : WbIcd) (U : UsbCfg (BitVec 32) E Unit Unit) (hU : UsbSound U) (hD : define_dispatch (p1_app E I) = .ok U.S.disp)
    (hkk : U.S.kkind = U.S.disp.n) (ha : WbApart I (keyLen U.S.disp.n)) (henc : ∀ n, U.S.enc (.val n) = enc_u32 n)
    (hsize : ∀ b, (∀ v, b ≠ .val v) → (U.S.enc b).length ≤ 1000) (hsend : ∀ log f, U.S.env.send log f = none)
    (herr : U.S.cfg.err_key = I.std.error) (hcount : U.S.env.overflow_checks = false ∨ (schemaMsgs U.S.disp.device_map).length ≤ 65535)
    {ls : List (PgLabel (BitVec 32))} (hu : PgUsed (p1_full E I) ls) {y : PgSys (BitVec 32) E Unit Unit}
    (hrun : pg_run I.std U ls (PgSys.start ()) = some y) :
    (∃ own z, PgOwnRun I.std U y own z ∧ PgStuck I.std U z) ∧
    ¬ ∃ (f : Nat → PgSys (BitVec 32) E Unit Unit) (g : Nat → PgLabel (BitVec 32)), f 0 = y ∧
      ∀ n, PgOwn (f n) (g n) ∧ pg_step I.std U (f n) (g n) = some (f (n + 1)) := by
  have S := p1_setup hU hD hkk ha henc hsize
  have hF : Fits (p1_full E I) U.S := p1_fits hsend herr hcount (by rw [hkk]; exact ha)
  obtain ⟨us, inv⟩ := pg_inv_run S (pgInv_start (p1_full E I) U ()) hrun hu
  exact ⟨pg_to_stuck S hF inv, pg_finite S hF inv⟩

/-- From the middle of the fourth round the example goes on to its end. -/
example : ∃ y own z, exPgRuns ((List.range 3).flatMap exPgRound ++ exPgAsk 3) = some y ∧ y.pc = .waiting 3 3 ∧ y.usb.sys.client.stopped = false ∧
    PgOwnRun exIcd.std exPg y own z ∧ PgStuck exIcd.std exPg z ∧ z.pc = .done ∧ z.term = rounds 10 ++ [.done] := by
  have h : (exPgRuns ((List.range 3).flatMap exPgRound ++ exPgAsk 3)).map (fun y => (y.pc, y.usb.sys.client.stopped)) = some (.waiting 3 3, false) := by
    decide +kernel
  obtain ⟨y, h1, h2⟩ := Option.map_eq_some_iff.mp h
  simp only [Prod.mk.injEq] at h2
  obtain ⟨r1, r2, r3, r4, r5, r6, r7, r8, r9, r10⟩ := exPg_ready
  have hq : PgUsed (p1_full WireTxErrorKind exIcd) ((List.range 3).flatMap exPgRound ++ exPgAsk 3) := exPg_quiet (by decide +kernel)
  obtain ⟨⟨own, z, ho, hs⟩, _⟩ := c96_terminates exIcd exPg r1 r2 r3 r4 r5 r6 r7 r8 r10 hq h1
  exact ⟨y, own, z, h1, h2.1, h2.2, ho, hs, c96_ends exIcd exPg r1 r2 r3 r4 r5 r6 r7 r8 r9 r10 hq h1 h2.2 ho hs⟩

/-! ### When the connection is lost -/

/-- The full statement: the program never panics. -/
def C96NoPanicFull (I : WbIcd) (U : UsbCfg (BitVec 32) E Unit Unit) : Prop :=
  ∀ ls y, pg_run I.std U ls (PgSys.start ()) = some y → y.pc ≠ .unwrapped ∧ y.pc ≠ .asserted

/-- C96: it is false of the code.  When the connection is lost during a `ping`, both branches of the `select!` become ready; if `run` is looked at first
its `unwrap` panics, instead of "Client is closed, exiting...". -/
theorem c96_panics_false : ¬ C96NoPanicFull exIcd exPg := by
  intro h
  have hr : (exPgRuns (exPgAsk 0 ++ ([.client .in_poll, .client (.in_recv none), .client (.call_closed 0)] : List (ULabel (BitVec 32))).map .sys ++
      [.returned])).map (fun y => y.pc) = some .unwrapped := by decide +kernel
  obtain ⟨y, h1, h2⟩ := Option.map_eq_some_iff.mp hr
  exact (h _ y h1).1 h2

/-- C96, partial (the full statement is `C96NoPanicFull`): if the board's sends succeed the program panics only after the connection was lost, and then in
`unwrap`; and as long as it has neither panicked nor ended it can, once the connection is lost, say so and end.  Without a loss it does neither. -/
theorem c96_panics_partial (I : WbIcd) (U : UsbCfg (BitVec 32) E Unit Unit) (hU : UsbSound U) (hD : define_dispatch (p1_app E I) = .ok U.S.disp)
    (hkk : U.S.kkind = U.S.disp.n) (ha : WbApart I (keyLen U.S.disp.n)) (henc : ∀ n, U.S.enc (.val n) = enc_u32 n)
    (hsize : ∀ b, (∀ v, b ≠ .val v) → (U.S.enc b).length ≤ 1000) (hsend : ∀ log f, U.S.env.send log f = none)
    (herr : U.S.cfg.err_key = I.std.error) (hcount : U.S.env.overflow_checks = false ∨ (schemaMsgs U.S.disp.device_map).length ≤ 65535)
    {ls : List (PgLabel (BitVec 32))} (hu : PgUsed (p1_full E I) ls) {y : PgSys (BitVec 32) E Unit Unit}
    (hrun : pg_run I.std U ls (PgSys.start ()) = some y) :
    y.pc ≠ .asserted ∧ (y.pc = .unwrapped → y.usb.sys.client.stopped = true) ∧ (.closed ∈ y.term → y.usb.sys.client.stopped = true) ∧
    (y.pc.live = true → y.usb.sys.client.stopped = true → ∃ z, pg_step I.std U y .closed = some z ∧ z.pc = .closed ∧ z.term = y.term ++ [.closed]) := by
  have S := p1_setup hU hD hkk ha henc hsize
  have hF : Fits (p1_full E I) U.S := p1_fits hsend herr hcount (by rw [hkk]; exact ha)
  obtain ⟨us, inv⟩ := pg_inv_run S (pgInv_start (p1_full E I) U ()) hrun hu
  have fine := pg_fine_run S hF (pgInv_start (p1_full E I) U ()) hrun hu (fun _ => ⟨nofun, nofun⟩)
  have hsh := inv.shows
  have st : (y.pc = .unwrapped ∨ y.pc = .closed) → y.usb.sys.client.stopped = true := by
    intro h
    cases e : y.usb.sys.client.stopped with
    | true => rfl
    | false => exact (h.elim (fine e).1 (fine e).2).elim
  have nc : ∀ k, PgLine.closed ∉ rounds k := by
    intro k hm
    simp [rounds] at hm
  refine ⟨?_, fun h => st (.inl h), fun h => st (.inr ?_), fun h1 h2 => ⟨_, by simp only [pg_step, h1, h2, and_self, if_true]; rfl, rfl, rfl⟩⟩
  · intro e
    rw [e] at hsh
    revert hsh
    generalize y.term = t
    intro hsh
    cases hsh
  · revert hsh h
    generalize y.term = t
    generalize y.pc = pc
    intro hsh hm
    cases hsh with
    | closed => rfl
    | closed_asking => rfl
    | between k _ => exact absurd hm (nc k)
    | asks k _ => exact absurd hm (by simp [nc])
    | waits k _ _ => exact absurd hm (by simp [nc])
    | fails k _ => exact absurd hm (by simp [nc])
    | done => exact absurd hm (by simp [nc])

/-- The connection is lost in the first round: the program can end either way. -/
example : ∃ y, exPgRuns (exPgAsk 0 ++ ([.client .in_poll, .client (.in_recv none), .client (.call_closed 0)] : List (ULabel (BitVec 32))).map .sys) = some y ∧
    y.pc.live = true ∧ y.usb.sys.client.stopped = true ∧ (pg_step exIcd.std exPg y .closed).map (·.term) = some [.pinging 0, .closed] ∧
    (pg_step exIcd.std exPg y .returned).map (·.pc) = some .unwrapped := by
  have h : (exPgRuns (exPgAsk 0 ++ ([.client .in_poll, .client (.in_recv none), .client (.call_closed 0)] : List (ULabel (BitVec 32))).map .sys)).map
      (fun y => (y.pc.live, y.usb.sys.client.stopped, (pg_step exIcd.std exPg y .closed).map (·.term), (pg_step exIcd.std exPg y .returned).map (·.pc))) =
      some (true, true, some [.pinging 0, .closed], some .unwrapped) := by decide +kernel
  obtain ⟨y, h1, h2⟩ := Option.map_eq_some_iff.mp h
  simp only [Prod.mk.injEq] at h2
  exact ⟨y, h1, h2⟩

/-! ### What a loss is -/

theorem pg_loss_step {V SC Ctx : Type} {std : StdKeys} {U : UsbCfg V E SC Ctx} {y y' : PgSys V E SC Ctx} {l : PgLabel V} (h : pg_step std U y l = some y')
    (hh : y.usb.sys.client.handles = true) :
    y'.usb.sys.client.handles = true ∧
    (y'.usb.sys.client.stopped = true ↔ y.usb.sys.client.stopped = true ∨ l = .sys (.client (.out_done false)) ∨ l = .sys (.client (.in_recv none))) := by
  cases pg_step_cases h with
  | sys k pc u hq hu =>
    show u.sys.client.handles = true ∧ (u.sys.client.stopped = true ↔ _)
    rcases u_step_client hu with ⟨l', rfl, hs⟩ | ⟨hn, e⟩
    · refine ⟨step_handles hs hh (by rintro rfl; cases hq), ?_, ?_⟩
      · intro hst
        cases e : y.usb.sys.client.stopped with
        | true => exact .inl rfl
        | false =>
          rcases step_stops hs e hst with rfl | rfl | rfl | h
          · cases hq
          · exact .inr (.inl rfl)
          · exact .inr (.inr rfl)
          · exact absurd (hh.symm.trans h) nofun
      · rintro (h | h | h)
        · exact step_stopped hs h
        · cases h; exact c38_failures_close (.inr (.inl rfl)) hs
        · cases h; exact c38_failures_close (.inr (.inr rfl)) hs
    · rw [e]
      refine ⟨hh, .inl, ?_⟩
      rintro (h | h | h)
      · exact h
      · cases h; exact absurd rfl (hn _)
      · cases h; exact absurd rfl (hn _)
  | _ => exact ⟨hh, .inl, by rintro (h | h | h) <;> first | exact h | cases h⟩

theorem pg_loss_run {V SC Ctx : Type} {std : StdKeys} {U : UsbCfg V E SC Ctx} {ls : List (PgLabel V)} :
    ∀ {y y' : PgSys V E SC Ctx}, pg_run std U ls y = some y' → y.usb.sys.client.handles = true →
    (y'.usb.sys.client.stopped = true ↔ y.usb.sys.client.stopped = true ∨ PgLost ls) := by
  induction ls with
  | nil => intro y y' h _; cases h; simp [PgLost]
  | cons l ls ih =>
    intro y y' h hh
    obtain ⟨y1, hs, hr⟩ := pg_run_cons h
    obtain ⟨h1, h2⟩ := pg_loss_step hs hh
    rw [ih hr h1, h2]
    simp only [PgLost, List.mem_cons, eq_comm (b := l)]
    constructor
    · rintro ((h | h | h) | h | h)
      · exact .inl h
      · exact .inr (.inl (.inl h))
      · exact .inr (.inr (.inl h))
      · exact .inr (.inl (.inr h))
      · exact .inr (.inr (.inr h))
    · rintro (h | (h | h) | h | h)
      · exact .inl (.inl h)
      · exact .inl (.inr (.inl h))
      · exact .inr (.inl h)
      · exact .inl (.inr (.inr h))
      · exact .inr (.inr h)

/-- C96: the connection is lost exactly when a transfer to or from the board has failed: nothing the program or the board does ends it otherwise. -/
theorem c96_lost {V SC Ctx : Type} (std : StdKeys) (U : UsbCfg V E SC Ctx) {ls : List (PgLabel V)} {c0 : Ctx} {y : PgSys V E SC Ctx}
    (hrun : pg_run std U ls (PgSys.start c0) = some y) : y.usb.sys.client.stopped = true ↔ PgLost ls := by
  rw [pg_loss_run hrun rfl]
  exact ⟨fun h => h.elim nofun id, .inr⟩

/-- Ten rounds without a loss; one that is lost. -/
example : (exPgRuns ((List.range 10).flatMap exPgRound)).map (·.usb.sys.client.stopped) = some false ∧
    (exPgRuns (exPgAsk 0 ++ ([.client .in_poll, .client (.in_recv none)] : List (ULabel (BitVec 32))).map .sys)).map (·.usb.sys.client.stopped) = some true := by
  decide +kernel

end PRpc.Props
