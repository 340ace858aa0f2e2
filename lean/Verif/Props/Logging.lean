import Verif.Lemmas.Logging
import Verif.Props.SubEnd
import Verif.Props.Topics
import Verif.Props.WorkbookLive
/-! The logging example: C95. -/

namespace PRpc.Props

open Spec

variable {E : Type}

/-! ### What the host has received -/

theorem pubs_text {k : Nat} : ∀ {n : Nat} {ps : List (Publication LgVal)} {f : Nat → VarSeq},
    ps.map (fun p => (p.seq, p.msg)) = (List.range n).map (fun i => (f i, log_msg (BitVec.ofNat 16 k + BitVec.ofNat 16 i))) →
    (ps.map fun p => msg_text p.msg) = (List.range' k n).map logged ∧ ps.length = n ∧
    ∀ p ∈ ps, ∃ ctr, p.msg = log_msg ctr := by
  intro n ps f h
  have h1 : (ps.map fun p => msg_text p.msg) = (List.range' k n).map logged := by
    have := congrArg (List.map fun x : VarSeq × LgVal => msg_text x.2) h
    rw [List.map_map, List.map_map] at this
    rw [show (ps.map fun p => msg_text p.msg) = ps.map ((fun x : VarSeq × LgVal => msg_text x.2) ∘ fun p => (p.seq, p.msg)) from rfl, this,
      List.range'_eq_map_range, List.map_map]
    apply List.map_congr_left
    intro i _
    show msg_text (log_msg (BitVec.ofNat 16 k + BitVec.ofNat 16 i)) = logged (k + i)
    rw [← BitVec.ofNat_add, msg_logged]
  refine ⟨h1, ?_, ?_⟩
  · have := congrArg List.length h
    simpa using this
  · intro p hp
    have : (p.seq, p.msg) ∈ ps.map (fun p => (p.seq, p.msg)) := List.mem_map.mpr ⟨p, hp, rfl⟩
    rw [h, List.mem_map] at this
    obtain ⟨i, _, e⟩ := this
    exact ⟨_, (congrArg Prod.snd e).symm⟩

theorem sent_text : ∀ {ps : List (Publication LgVal)} {k : Nat}, (ps.map fun p => msg_text p.msg) = (List.range' k ps.length).map logged →
    ((succeeded ps).map fun p => msg_text p.msg) = (sentFrom k (ps.map (·.ok))).map logged := by
  intro ps
  induction ps with
  | nil => intro k _; rfl
  | cons p ps ih =>
    intro k h
    simp only [List.map_cons, List.length_cons, List.range'_succ, List.cons.injEq] at h
    have := ih h.2
    simp only [succeeded] at this ⊢
    cases hb : p.ok with
    | true => simp only [List.filter_cons, hb, if_true, List.map_cons, sentFrom, this, h.1]
    | false =>
      simp only [List.filter_cons, hb, List.map_cons, sentFrom]
      exact this

theorem succeeded_all {ps : List (Publication LgVal)} (h : ∀ p ∈ ps, p.ok = true) : succeeded ps = ps := by
  rw [succeeded, List.filter_eq_self]
  exact h

/-- What the host has shown when it is subscribed, and has it stopped? -/
theorem lg_core {I : WbIcd} {U : UsbCfg LgVal E Unit Unit} {wd wh : Nat} {utf8 : Bytes → Bool} (S : LgSetup I U wd)
    (hwh : wh = 2 ∨ wh = 4 ∨ wh = 8) (hu : TakesAscii utf8) {y : LgSys E} {ls ls1 ls2 : List LgLabel} {y1 y2 : LgSys E} {id : Nat}
    (x : SubbedAt I U (from_bytes (take_str utf8 wh)) LgSys.start y ls ls1 ls2 y1 y2 id) :
    ∃ m texts stopped, m ≤ ticks ls1 ∧ ShowsLogs y.term texts stopped ∧ (y.pc = if stopped then .ended else .receiving id) ∧
      texts.Sublist (((List.range (ticks ls)).drop m).map logged) ∧ NoSharedMulti y.usb.sys.client ∧
      (y.pc = .receiving id →
        (multi_recv y.usb.sys.client.subs id).1 = none → UsbCaughtUp y.usb →
        ((sentFrom (ticks ls1) (outcomes I U (from_bytes (take_str utf8 wh)) ls2 y2)).map logged).Sublist texts ∧
        ((∀ b ∈ outcomes I U (from_bytes (take_str utf8 wh)) ls1 LgSys.start ++ outcomes I U (from_bytes (take_str utf8 wh)) ls2 y2, b = true) →
          texts = ((List.range (ticks ls)).drop m).map logged ∧ (UsbCaughtUp y1.usb → m = ticks ls1))) := by
  obtain ⟨us1, t1, _⟩ := lg_run_trace x.before
  obtain ⟨us2, t2, hrecv, _⟩ := lg_run_trace x.after
  obtain ⟨us0, t0, _⟩ := lg_step_trace x.sub
  have c2 : y2.ctr = y1.ctr := by
    have := t0.ctr.1
    simpa [ticks] using this
  have hn : ticks ls = ticks ls1 + ticks ls2 := by rw [x.split, ticks_append]; rfl
  have hused : ∀ k ∈ us1 ++ .client (.sub_multi I.std.logging_topic 64) :: us2, UsbUsed (lg_full E I) k := by
    intro k hk
    rcases List.mem_append.mp hk with h | h
    · exact t1.used k h
    · rcases List.mem_cons.mp h with rfl | h
      · trivial
      · exact t2.used k h
  have hdecl : ∀ k ∈ usbClientSteps (us1 ++ .client (.sub_multi I.std.logging_topic 64) :: us2), ToDeclared (lg_full E I) k := by
    intro k hk
    rw [usbClientSteps_at] at hk
    rcases List.mem_append.mp hk with h | h
    · exact t1.decl k h
    · rcases List.mem_cons.mp h with rfl | h
      · exact ⟨_, List.mem_cons_of_mem _ (List.mem_cons_self ..), rfl⟩
      · exact t2.decl k h
  obtain ⟨late, r, hlate, hr, hsome, hall⟩ := usb_multi_of S.sound S.ctx (.first _) t1.run x.usb t2.run hused (S.small _) (id := id) ⟨rfl, x.ok⟩
  obtain ⟨hns, hall⟩ := hall hdecl
  have hctr1 : (LgSys.start : LgSys E).ctr = BitVec.ofNat 16 0 := rfl
  have p1 := t1.pubs
  rw [hctr1] at p1
  obtain ⟨p1a, p1b, p1c⟩ := pubs_text (f := fun i => .Seq2 ((LgSys.start : LgSys E).log_seq + BitVec.ofNat 16 i)) p1
  have hctr2 : y2.ctr = BitVec.ofNat 16 (ticks ls1) := by
    rw [c2, t1.ctr.1, hctr1, ← BitVec.ofNat_add, Nat.zero_add]
  have p2 := t2.pubs
  rw [hctr2] at p2
  obtain ⟨p2a, p2b, p2c⟩ := pubs_text (f := fun i => .Seq2 (y2.log_seq + BitVec.ofNat 16 i)) p2
  have p1a : ((usbPublications U I.std.logging_topic us1 (UsbSys.new ())).map fun p => msg_text p.msg) = (List.range' 0 (ticks ls1)).map logged := p1a
  have p1b : (usbPublications U I.std.logging_topic us1 (UsbSys.new ())).length = ticks ls1 := p1b
  obtain ⟨early, hearly⟩ := hlate.last
  have hel : early.length + late.length = ticks ls1 := by rw [← p1b, ← hearly, List.length_append]
  have hlt : (late.map fun p => msg_text p.msg) = (List.range' early.length late.length).map logged := by
    rw [← hearly, List.map_append, ← hel] at p1a
    have := congrArg (List.drop early.length) p1a
    rw [List.drop_left' (by simp), ← List.map_drop, List.drop_range', Nat.mul_one, Nat.zero_add, Nat.add_sub_cancel_left] at this
    exact this
  have hpt : ((late ++ usbPublications U I.std.logging_topic us2 y2.usb).map fun p => msg_text p.msg) =
      ((List.range (ticks ls)).drop early.length).map logged := by
    rw [List.map_append, hlt, p2a, ← List.map_append, List.range_eq_range', List.drop_range', Nat.mul_one, Nat.zero_add, hn, ← hel,
      List.range'_append_1]
    congr 2
    omega
  have hund : ∀ p ∈ late ++ usbPublications U I.std.logging_topic us2 y2.usb,
      Understood (from_bytes (take_str utf8 wh)) (U.S.enc (.val p.msg)) (msg_text p.msg) := by
    intro p hp
    have : ∃ ctr, p.msg = log_msg ctr := by
      rcases List.mem_append.mp hp with h | h
      · exact p1c p (by show p ∈ usbPublications U I.std.logging_topic us1 (UsbSys.new ()); rw [← hearly]; exact List.mem_append_right _ h)
      · exact p2c p h
    obtain ⟨ctr, e⟩ := this
    rw [e, S.enc]
    exact log_understood hu S.width hwh _ _
  have hsub := hsome.2 _ _ msg_text hund
  rw [hpt] at hsub
  have hterm := hrecv id x.pc
  rw [x.term] at hterm
  have hpre : ((receivedMulti U.S.cfg id (usbClientSteps us2) y2.usb.sys.client).filterMap fun f => from_bytes (take_str utf8 wh) f.body).Sublist
      (((List.range (ticks ls)).drop early.length).map logged) := by
    rw [List.filterMap_append] at hsub
    exact (List.sublist_append_left _ _).trans hsub
  refine ⟨early.length, (receivedMulti U.S.cfg id (usbClientSteps us2) y2.usb.sys.client).filterMap fun f => from_bytes (take_str utf8 wh) f.body,
    decide (y.pc = .ended), by omega, ?_, ?_, hpre, hns, ?_⟩
  · rcases hterm with ⟨e, h⟩ | ⟨e, h⟩
    · rw [ShowsLogs, h, e]
      exact (List.append_nil _).symm
    · rw [ShowsLogs, h, e]
      rfl
  · rcases hterm with ⟨e, h⟩ | ⟨e, h⟩ <;> rw [e] <;> rfl
  · intro hp hw hq
    obtain ⟨r', g1, g2, g3, _⟩ := (x.healthy hp).here
    have : r' = r := Option.some.inj (g1.symm.trans hr)
    subst this
    have hz : r'.missed = 0 ∧ r'.pending = [] := by
      simp only [multi_recv, hr] at hw
      split at hw
      · cases hw
      · split at hw
        · cases hw
        · rename_i hm hpd
          exact ⟨by omega, hpd⟩
    have hA := (hall g2 (by rw [← g3, hz.1]) hq).2 _ _ msg_text hund
    rw [hz.2, List.append_nil] at hA
    have ok2 : (usbPublications U I.std.logging_topic us2 y2.usb).map (·.ok) = outcomes I U (from_bytes (take_str utf8 wh)) ls2 y2 := t2.oks
    have ok1 : (usbPublications U I.std.logging_topic us1 (UsbSys.new ())).map (·.ok) =
        outcomes I U (from_bytes (take_str utf8 wh)) ls1 LgSys.start := t1.oks
    constructor
    · rw [← ok2, ← sent_text (by rw [p2b]; exact p2a)]
      refine List.Sublist.trans ?_ hA
      refine List.Sublist.map _ ?_
      rw [succeeded, succeeded, List.filter_append]
      exact List.sublist_append_right _ _
    · intro hok
      have ok : ∀ p ∈ late ++ usbPublications U I.std.logging_topic us2 y2.usb, p.ok = true := by
        intro p hp
        rcases List.mem_append.mp hp with h | h
        · refine hok _ (List.mem_append_left _ ?_)
          rw [← ok1, List.mem_map]
          exact ⟨p, by rw [← hearly]; exact List.mem_append_right _ h, rfl⟩
        · refine hok _ (List.mem_append_right _ ?_)
          rw [← ok2, List.mem_map]
          exact ⟨p, h, rfl⟩
      rw [succeeded_all ok, hpt] at hA
      refine ⟨hpre.eq_of_length_le hA.length_le, fun hc => ?_⟩
      have h0 := hlate.none hc
      rw [succeeded_all fun p hp => ok p (List.mem_append_left _ hp)] at h0
      rw [h0, List.length_nil] at hel
      omega

/-! ### An example -/

/-- The dispatcher of the logging firmware with the keys of `exIcd`. -/
def exLgDisp : Dispatcher LgVal WireTxErrorKind Unit Unit where
  std := exStd
  n := .Key1
  eps := []
  tps := []
  ping_decode := fun b => (from_bytes take_u32 b).map .num
  spawn_ctxt := fun c => ((), c)
  device_map := ⟨[], exIcd.endpoint_list.endpoints, [], exIcd.topics_out_list.topics, .Key1⟩

theorem exLg_ok : define_dispatch (lg_app WireTxErrorKind exIcd) = .ok exLgDisp := by
  have h : needed_sz (lg_app WireTxErrorKind exIcd).sizer = .ok 1 := by decide +kernel
  unfold define_dispatch
  rw [h]
  simp only [Exec.ok_bind, kind_of_sz, if_true, merge_types_eq]
  rfl

/-- The bytes of what is sent, for a board with a `usize` of four bytes; those of the standard messages do not matter here. -/
def exLgEnc : Body LgVal → Bytes
  | .val v => enc_lg 4 .Key1 v
  | _ => [0]

def exLg : UsbCfg LgVal WireTxErrorKind Unit Unit :=
  ⟨⟨⟨.Seq4, exKey 0xE0#8, 8, false⟩, exLgDisp, .Key1, ⟨fun _ _ => none, fun _ _ => true, true⟩, id, exLgEnc, fun _ _ => 0⟩, 1024, false, 1⟩

/-- How a host with a `usize` of eight bytes decodes a message, if it only knows ASCII. -/
def exAscii (t : Bytes) : Bool := t.all fun b => b.toNat < 128

theorem exAscii_takes : TakesAscii exAscii := fun t h => List.all_eq_true.mpr fun b hb => decide_eq_true (h b hb)

theorem exLg_sound : UsbSound exLg := ⟨⟨16, rfl⟩, by decide, by decide⟩

theorem exLg_apart : WbApart exIcd (keyLen exLg.S.disp.n) := exWb_apart

theorem exLg_size : ∀ b, (∀ v, b ≠ .val v) → (exLg.S.enc b).length ≤ 1000 := by
  intro b hb
  cases b with
  | val v => exact absurd rfl (hb v)
  | _ => exact Nat.le_of_ble_eq_true rfl

abbrev exLgRuns (ls : List LgLabel) (y : LgSys WireTxErrorKind) : Option (LgSys WireTxErrorKind) :=
  lg_run exIcd exLg (from_bytes (take_str exAscii 8)) ls y

/-- The ping of the host and its answer. -/
def exLgPing : List LgLabel :=
  ([.client (.call_begin exStd.ping_req exStd.ping_resp (enc_u32 42#32)), .client (.call_kind 0), .client (.call_reg_ok 0),
    .client (.call_reg_err 0), .client (.call_send 0), .client .out_poll, .client .out_recv, .host_packet, .dev_read, .client (.out_done true),
    .client .out_yield, .flush, .dev_write .ok, .client .in_poll, .client (.in_recv (some [0x20, 1, 0, 0, 0, 0, 42])), .client .in_lookup,
    .client (.in_wake (some ⟨0, false⟩)), .client .in_yield, .client (.call_ok 0)] : List (ULabel LgVal)).map .sys ++ [.returned]

/-- The board logs its message number `k`. -/
def exLgTick (k : Nat) : List LgLabel :=
  .tick :: ([.dev_write .ok, .client .in_poll,
    .client (.in_recv (some ([0x10, 0x91, BitVec.ofNat 8 k, BitVec.ofNat 8 (k / 256)] ++ enc_lg 4 .Key1 (log_msg (BitVec.ofNat 16 k))))),
    .client .in_lookup] : List (ULabel LgVal)).map .sys

/-- One message is logged before the subscription, which the host never sees, and two after it. -/
def exLgBefore : List LgLabel := exLgPing ++ exLgTick 0 ++ [.sys (.client (.in_wake none)), .sys (.client .in_yield)]

def exLgAfter : List LgLabel :=
  exLgTick 1 ++ [.received, .sys (.client .in_yield)] ++ exLgTick 2 ++ [.received, .sys (.client .in_yield)]

/-- Sixty-five messages are logged before the host looks. -/
def exLgLag : List LgLabel :=
  exLgPing ++ [.subscribed] ++ ((List.range 65).flatMap fun k => exLgTick k ++ [.sys (.client .in_yield)]) ++ [.received]

/-- The cable is pulled. -/
def exLgPulled : List LgLabel :=
  exLgBefore ++ .subscribed :: exLgAfter ++
    ([.client .in_poll, .client (.in_recv none), .client .in_purge] : List (ULabel LgVal)).map .sys ++ [.received]

/-! ### What is shown -/

/-- C95: at every moment the host has shown its greeting, or its greeting, the answer 42 to its ping, and then log messages of the board,
as the board logged them: in their order, none twice, none that the board did not log.  Having said that the device is
disconnected it shows nothing more. -/
theorem c95_shown (I : WbIcd) (U : UsbCfg LgVal E Unit Unit) (hU : UsbSound U) (hD : define_dispatch (lg_app E I) = .ok U.S.disp)
    (hkk : U.S.kkind = U.S.disp.n) (ha : WbApart I (keyLen U.S.disp.n)) {wd wh : Nat} (hwd : wd = 2 ∨ wd = 4 ∨ wd = 8)
    (hwh : wh = 2 ∨ wh = 4 ∨ wh = 8) (henc : ∀ v, U.S.enc (.val v) = enc_lg wd U.S.kkind v)
    (hsize : ∀ b, (∀ v, b ≠ .val v) → (U.S.enc b).length ≤ 1000) {utf8 : Bytes → Bool} (hu : TakesAscii utf8)
    {ls : List LgLabel} {y : LgSys E} (hrun : lg_run I U (from_bytes (take_str utf8 wh)) ls LgSys.start = some y) :
    y.term = [.connecting, .connected] ∨
    ∃ texts stopped, ShowsLogs y.term texts stopped ∧ texts.Sublist ((List.range (ticks ls)).map logged) ∧
      (stopped = true ↔ y.pc = .ended) := by
  have S : LgSetup I U wd := ⟨hU, hD, hkk, ha, henc, hwd, hsize⟩
  rcases early_from_start S hrun with h | ⟨ls1, ls2, y1, y2, id, x⟩
  · obtain ⟨_, _, h⟩ := h
    have hp : y.term = greeting ∨ y.term = pinged ∧ y.pc ≠ .ended := by
      split at h
      · exact .inl h.1
      · exact .inl h.1
      · rename_i e; exact .inr ⟨h, by rw [e]; nofun⟩
      · rename_i e
        exact h.imp_right fun h => ⟨h, by rw [e]; nofun⟩
      · exact h.elim
    rcases hp with h | ⟨h, hn⟩
    · exact .inl h
    · exact .inr ⟨[], false, h, List.nil_sublist _, by simp [hn]⟩
  · obtain ⟨m, texts, stopped, _, h2, h3, h4, _⟩ := lg_core S hwh hu x
    refine .inr ⟨texts, stopped, h2, h4.trans (List.Sublist.map _ (List.drop_sublist _ _)), ?_⟩
    cases stopped <;> rw [h3] <;> simp

/-- The theorems on the logging programs apply to `exLg`: the host shows the second and third message and then, the cable being pulled, that the
device is disconnected. -/
example : UsbSound exLg ∧ define_dispatch (lg_app WireTxErrorKind exIcd) = .ok exLg.S.disp ∧ exLg.S.kkind = exLg.S.disp.n ∧
    WbApart exIcd (keyLen exLg.S.disp.n) ∧ (∀ v, exLg.S.enc (.val v) = enc_lg 4 exLg.S.kkind v) ∧
    (∀ b, (∀ v, b ≠ .val v) → (exLg.S.enc b).length ≤ 1000) ∧ TakesAscii exAscii ∧
    ∃ y, exLgRuns exLgPulled LgSys.start = some y ∧ ticks exLgPulled = 3 ∧ ShowsLogs y.term [logged 1, logged 2] true ∧ y.pc = .ended := by
  refine ⟨exLg_sound, exLg_ok, rfl, exLg_apart, fun _ => rfl, exLg_size, exAscii_takes, ?_⟩
  have h : (exLgRuns exLgPulled LgSys.start).map (fun y => (y.term, y.pc)) =
      some ([.connecting, .connected, .got 42, .blank, .log (ascii "Hello world!".toList), .log (ascii "formatted: 2".toList), .disconnected], .ended) := by
    decide +kernel
  obtain ⟨y, h1, h2⟩ := Option.map_eq_some_iff.mp h
  simp only [Prod.mk.injEq] at h2
  refine ⟨y, h1, by decide, ?_, h2.2⟩
  rw [ShowsLogs, h2.1]
  decide +kernel

theorem subbed_of {I : WbIcd} {U : UsbCfg LgVal E Unit Unit} {w : Nat} (S : LgSetup I U w) {decode : Bytes → Option Bytes}
    {ls1 ls2 : List LgLabel} {y1 y2 y : LgSys E} (h1 : lg_run I U decode ls1 LgSys.start = some y1)
    (h2 : lg_step I U decode y1 .subscribed = some y2) (h3 : lg_run I U decode ls2 y2 = some y) {id : Nat} (hp : y.pc = .receiving id) :
    SubbedAt I U decode LgSys.start y (ls1 ++ .subscribed :: ls2) ls1 ls2 y1 y2 id := by
  have hr : lg_run I U decode (ls1 ++ .subscribed :: ls2) LgSys.start = some y := lg_run_append h1 (by simp only [lg_run, h2]; exact h3)
  have hsub : y1.pc = .subscribing := by
    cases lg_step_cases h2 with
    | sub_ok u id h => exact h
    | sub_fail u h => exact h
  obtain ⟨us, t, _⟩ := lg_run_trace h1
  rcases early_from_start S h1 with he | ⟨_, _, z1, z2, j, x⟩
  · rcases early_step S t he h2 with he2 | ⟨_, g1, g2, j, g3, g4, g5, g6⟩
    · obtain ⟨us', t', _⟩ := lg_run_trace (lg_run_append h1 (by simp only [lg_run, h2] : lg_run I U decode [.subscribed] y1 = some y2))
      rcases early_run S t' he2 h3 with he3 | ⟨_, _, z1, z2, k, x⟩
      · have := he3.2.2
        rw [hp] at this
        exact this.elim
      · have hpc2 : y2.pc = .panicked := by
          cases lg_step_cases h2 with
          | sub_ok u id h => exact (show False from he2.2.2).elim
          | sub_fail u h => rfl
        exfalso
        have stay : ∀ {ls : List LgLabel} {y y' : LgSys E}, lg_run I U decode ls y = some y' → y.pc = .panicked → y'.pc = .panicked := by
          intro ls
          induction ls with
          | nil => intro y y' h e; cases h; exact e
          | cons l ls ih =>
            intro y y' h e
            obtain ⟨z, hs, hr⟩ := lg_run_cons h
            refine ih hr ?_
            cases lg_step_cases hs with
            | sys k pc u hq hu =>
              rcases lg_allows_cases (E := E) hq with ⟨e1, _⟩ | ⟨rfl, _⟩
              · rw [e] at e1; cases e1
              · exact e
            | tick => exact e
            | returned c cl r hq => rw [e] at hq; cases hq
            | sub_ok u i hq => rw [e] at hq; cases hq
            | sub_fail u hq => rfl
            | received u i r hq => rw [e] at hq; cases hq
        have := stay h3 hpc2
        rw [hp] at this
        cases this
    · have : id = j := stays_receiving h3 g3 hp
      subst this
      exact ⟨rfl, h1, h2, h3, g3, g4.trans g1, g2, g5, g6⟩
  · exfalso
    obtain ⟨_, _, g, _⟩ := lg_run_trace x.after
    rcases g j x.pc with ⟨e, _⟩ | ⟨e, _⟩ <;> (rw [hsub] at e; cases e)

/-- C95: nothing is left out.  If the host waits for the next message and all that was sent has been handed on, then it has shown every
message that was sent without an error since it was subscribed.  If none was sent with an error it has shown all messages from
number `m` on, where `m` is at most the number logged before the subscription: exactly this number if what had been sent by then had been
handed on. -/
theorem c95_complete (I : WbIcd) (U : UsbCfg LgVal E Unit Unit) (hU : UsbSound U) (hD : define_dispatch (lg_app E I) = .ok U.S.disp)
    (hkk : U.S.kkind = U.S.disp.n) (ha : WbApart I (keyLen U.S.disp.n)) {wd wh : Nat} (hwd : wd = 2 ∨ wd = 4 ∨ wd = 8)
    (hwh : wh = 2 ∨ wh = 4 ∨ wh = 8) (henc : ∀ v, U.S.enc (.val v) = enc_lg wd U.S.kkind v)
    (hsize : ∀ b, (∀ v, b ≠ .val v) → (U.S.enc b).length ≤ 1000) {utf8 : Bytes → Bool} (hu : TakesAscii utf8)
    {ls1 ls2 : List LgLabel} {y1 y2 y : LgSys E} (h1 : lg_run I U (from_bytes (take_str utf8 wh)) ls1 LgSys.start = some y1)
    (h2 : lg_step I U (from_bytes (take_str utf8 wh)) y1 .subscribed = some y2)
    (h3 : lg_run I U (from_bytes (take_str utf8 wh)) ls2 y2 = some y) {id : Nat} (hp : y.pc = .receiving id)
    (hw : (multi_recv y.usb.sys.client.subs id).1 = none) (hq : UsbCaughtUp y.usb) :
    ∃ m texts, m ≤ ticks ls1 ∧ ShowsLogs y.term texts false ∧
      texts.Sublist (((List.range (ticks ls1 + ticks ls2)).drop m).map logged) ∧
      ((sentFrom (ticks ls1) (outcomes I U (from_bytes (take_str utf8 wh)) ls2 y2)).map logged).Sublist texts ∧
      ((∀ b ∈ outcomes I U (from_bytes (take_str utf8 wh)) ls1 LgSys.start ++ outcomes I U (from_bytes (take_str utf8 wh)) ls2 y2, b = true) →
        texts = ((List.range (ticks ls1 + ticks ls2)).drop m).map logged ∧ (UsbCaughtUp y1.usb → m = ticks ls1)) := by
  have S : LgSetup I U wd := ⟨hU, hD, hkk, ha, henc, hwd, hsize⟩
  have x := subbed_of S h1 h2 h3 hp
  obtain ⟨m, texts, stopped, g1, g2, g3, g4, _, g5⟩ := lg_core S hwh hu x
  have hn : ticks (ls1 ++ .subscribed :: ls2) = ticks ls1 + ticks ls2 := ticks_append ..
  rw [hn] at g4 g5
  obtain ⟨g6, g7⟩ := g5 hp hw hq
  cases stopped with
  | false => exact ⟨m, texts, g1, g2, g4, g6, g7⟩
  | true => rw [hp] at g3; cases g3

set_option synthInstance.maxSize 1000 in
/-- The hypotheses of `c95_complete` can be met: all was handed on when the host subscribed and is again; nothing was sent with an error. -/
example : ∃ y1 y2 y, exLgRuns exLgBefore LgSys.start = some y1 ∧
    lg_step exIcd exLg (from_bytes (take_str exAscii 8)) y1 .subscribed = some y2 ∧ exLgRuns exLgAfter y2 = some y ∧ y.pc = .receiving 0 ∧
    (multi_recv y.usb.sys.client.subs 0).1 = none ∧ UsbCaughtUp y.usb ∧ UsbCaughtUp y1.usb ∧ ticks exLgBefore = 1 ∧ ticks exLgAfter = 2 ∧
    outcomes exIcd exLg (from_bytes (take_str exAscii 8)) exLgBefore LgSys.start = [true] ∧
    outcomes exIcd exLg (from_bytes (take_str exAscii 8)) exLgAfter y2 = [true, true] := by
  have h : ((exLgRuns exLgBefore LgSys.start).bind fun y1 =>
      (lg_step exIcd exLg (from_bytes (take_str exAscii 8)) y1 .subscribed).bind fun y2 =>
      (exLgRuns exLgAfter y2).map fun y =>
        (y.pc, (multi_recv y.usb.sys.client.subs 0).1.isNone, (y.usb.sys.air, y.usb.sending.isNone, y.usb.cur, y.usb.sys.client.in_pc),
          (y1.usb.sys.air, y1.usb.sending.isNone, y1.usb.cur, y1.usb.sys.client.in_pc),
          outcomes exIcd exLg (from_bytes (take_str exAscii 8)) exLgAfter y2)) =
      some (.receiving 0, true, ([], true, [], .recv), ([], true, [], .recv), [true, true]) := by decide +kernel
  obtain ⟨y1, e1, h⟩ := Option.bind_eq_some_iff.mp h
  obtain ⟨y2, e2, h⟩ := Option.bind_eq_some_iff.mp h
  obtain ⟨y, e3, h⟩ := Option.map_eq_some_iff.mp h
  simp only [Prod.mk.injEq] at h
  obtain ⟨g1, g2, ⟨a1, a2, a3, a4⟩, ⟨b1, b2, b3, b4⟩, g3⟩ := h
  exact ⟨y1, y2, y, e1, e2, e3, g1, Option.isNone_iff_eq_none.mp g2,
    ⟨by rw [a1]; simp, ⟨Option.isNone_iff_eq_none.mp a2, a3⟩, by rw [a4]; simp, by rw [a4]; exact ⟨by simp, by simp⟩⟩,
    ⟨by rw [b1]; simp, ⟨Option.isNone_iff_eq_none.mp b2, b3⟩, by rw [b4]; simp, by rw [b4]; exact ⟨by simp, by simp⟩⟩,
    by decide, by decide, by decide +kernel, g3⟩

/-! ### The end -/

/-- The full statement: "Device disconnected" is said only if the client's receive worker is ending or has ended. -/
def C95StopsFull (I : WbIcd) (U : UsbCfg LgVal E Unit Unit) (decode : Bytes → Option Bytes) : Prop :=
  ∀ ls y, lg_run I U decode ls LgSys.start = some y → LgLine.disconnected ∈ y.term →
    y.usb.sys.client.in_pc = .purge ∨ y.usb.sys.client.in_pc = .exited

theorem lg_ended_at {I : WbIcd} {U : UsbCfg LgVal E Unit Unit} {decode : Bytes → Option Bytes} {id : Nat} : ∀ {ls : List LgLabel} {y y' : LgSys E},
    lg_run I U decode ls y = some y' → y.pc = .receiving id → y'.pc = .ended →
    ∃ ls1 ls2 z1 z2, ls = ls1 ++ .received :: ls2 ∧ lg_run I U decode ls1 y = some z1 ∧ z1.pc = .receiving id ∧
      lg_step I U decode z1 .received = some z2 ∧ z2.pc = .ended ∧ lg_run I U decode ls2 z2 = some y' ∧
      y'.usb.sys.client = z2.usb.sys.client := by
  intro ls
  induction ls with
  | nil => intro y y' h hp hp'; cases h; rw [hp] at hp'; cases hp'
  | cons l ls ih =>
    intro y y' h hp hp'
    obtain ⟨z, hs, hr⟩ := lg_run_cons h
    obtain ⟨us, _, g1, _⟩ := lg_step_trace hs
    rcases g1 id hp with ⟨e, _⟩ | ⟨e, _⟩
    · obtain ⟨ls1, ls2, z1, z2, e1, e2, e3⟩ := ih hr e hp'
      exact ⟨l :: ls1, ls2, z1, z2, by rw [e1]; rfl, by simp only [lg_run, hs]; exact e2, e3⟩
    · have hl : l = .received := by
        cases lg_step_cases hs with
        | sys k pc u hq hu =>
          rcases lg_allows_cases (E := E) hq with ⟨e1, _⟩ | ⟨rfl, _⟩
          · rw [hp] at e1; cases e1
          · have e : y.pc = .ended := e
            rw [hp] at e; cases e
        | tick => have e : y.pc = .ended := e; rw [hp] at e; cases e
        | returned c cl r hq => rw [hp] at hq; cases hq
        | sub_ok u i hq => rw [hp] at hq; cases hq
        | sub_fail u hq => rw [hp] at hq; cases hq
        | received => rfl
      subst hl
      refine ⟨[], ls, y, z, rfl, rfl, hp, hs, e, hr, ?_⟩
      obtain ⟨vs, t, _, g2⟩ := lg_run_trace hr
      have := usb_client_run t.run
      rw [(g2 e).2.2] at this
      exact (Option.some.inj this).symm

theorem exLg_lags : ∃ y, exLgRuns exLgLag LgSys.start = some y ∧ LgLine.disconnected ∈ y.term ∧ y.usb.sys.client.in_pc = .recv ∧
    y.usb.sys.client.stopped = false := by
  have h : (exLgRuns exLgLag LgSys.start).map (fun y => (y.term, y.usb.sys.client.in_pc, y.usb.sys.client.stopped)) =
      some ([.connecting, .connected, .got 42, .blank, .disconnected], .recv, false) := by decide +kernel
  obtain ⟨y, h1, h2⟩ := Option.map_eq_some_iff.mp h
  simp only [Prod.mk.injEq] at h2
  exact ⟨y, h1, by rw [h2.1]; simp, h2.2⟩

/-- C95, the full statement about the end is false: if the board has logged sixty-five messages before the host looks, `recv` returns
`Lagged`, the `while let Ok(..)` ends, and the host says that the device is disconnected, which it is not. -/
theorem c95_stops_false : ¬ C95StopsFull exIcd exLg (from_bytes (take_str exAscii 8)) := by
  intro h
  obtain ⟨y, h1, h2, h3, _⟩ := exLg_lags
  rcases h _ y h1 h2 with e | e <;> (rw [h3] at e; cases e)

/-- C95 (partial): "Device disconnected" is said only if the client's receive worker is ending or has ended, or if the host fell behind: then
more than 64 messages were waiting for it, the newest 64 of them still are, the others are lost.  Missing: the latter, in which the
device is still there, see `c95_stops_false`. -/
theorem c95_stops_partial (I : WbIcd) (U : UsbCfg LgVal E Unit Unit) (hU : UsbSound U) (hD : define_dispatch (lg_app E I) = .ok U.S.disp)
    (hkk : U.S.kkind = U.S.disp.n) (ha : WbApart I (keyLen U.S.disp.n)) {wd wh : Nat} (hwd : wd = 2 ∨ wd = 4 ∨ wd = 8)
    (hwh : wh = 2 ∨ wh = 4 ∨ wh = 8) (henc : ∀ v, U.S.enc (.val v) = enc_lg wd U.S.kkind v)
    (hsize : ∀ b, (∀ v, b ≠ .val v) → (U.S.enc b).length ≤ 1000) {utf8 : Bytes → Bool} (hu : TakesAscii utf8)
    {ls : List LgLabel} {y : LgSys E} (hrun : lg_run I U (from_bytes (take_str utf8 wh)) ls LgSys.start = some y)
    (hd : LgLine.disconnected ∈ y.term) :
    (y.usb.sys.client.in_pc = .purge ∨ y.usb.sys.client.in_pc = .exited) ∨
    ∃ (id : Nat) (r : BRx), y.usb.sys.client.subs.brxs[id]? = some r ∧ r.pending.length = 64 ∧ 0 < r.lost := by
  have S : LgSetup I U wd := ⟨hU, hD, hkk, ha, henc, hwd, hsize⟩
  have nolog : ∀ (t : Bytes), LgLine.disconnected ≠ .log t := nofun
  have hend : y.pc = .ended := by
    rcases c95_shown I U hU hD hkk ha hwd hwh henc hsize hu hrun with h | ⟨texts, stopped, h, _, hs⟩
    · rw [h] at hd; simp at hd
    · cases stopped with
      | true => exact hs.mp rfl
      | false =>
        rw [h] at hd
        simp at hd
  rcases early_from_start S hrun with h | ⟨ls1, ls2, y1, y2, id, x⟩
  · have := h.2.2
    rw [hend] at this
    exact this.elim
  · obtain ⟨ka, kb, z1, z2, e1, e2, e3, e4, e5, e6, e7⟩ := lg_ended_at x.after x.pc hend
    have x1 : SubbedAt I U (from_bytes (take_str utf8 wh)) LgSys.start z1 (ls1 ++ .subscribed :: ka) ls1 ka y1 y2 id :=
      ⟨rfl, x.before, x.sub, e2, x.pc, x.term, x.fresh, x.usb, x.ok⟩
    obtain ⟨r, h1, h2, h3, h4, h5, h6⟩ := (x1.healthy e3).here
    obtain ⟨_, _, _, _, _, _, _, hns, _⟩ := lg_core S hwh hu x1
    have hre : Reachable U.S.cfg z1.usb.sys.client := by
      obtain ⟨us, t, _⟩ := lg_run_trace (lg_run_append x.before (by simp only [lg_run, x.sub]; exact e2 :
        lg_run I U (from_bytes (take_str utf8 wh)) (.subscribed :: ka) y1 = some z1))
      exact ⟨_, usb_client_run t.run⟩
    cases lg_step_cases e4 with
    | received u i res hq hus hres =>
      rw [e3] at hq
      cases hq
      rcases u_step_client hus with ⟨k, e, hk⟩ | ⟨hn, _⟩
      · cases e
        simp only [step, Option.some.injEq] at hk
        rw [e7]
        cases res with
        | Ok f =>
          simp only [lg_received] at e5
          split at e5 <;> cases e5
        | IoClosed =>
          left
          have := c63_multi_ends_for_a_reason_partial hre h1 h2 hns hres
          show u.sys.client.in_pc = _ ∨ u.sys.client.in_pc = _
          rw [← hk]
          exact this
        | Lagged n =>
          right
          have hm : 0 < r.missed := by
            simp only [multi_recv, h1] at hres
            split at hres
            · rename_i h; exact h
            · split at hres
              · cases hres
              · split at hres <;> cases hres
          refine ⟨id, { r with missed := 0 }, ?_, h6 hm, by show 0 < r.lost; omega⟩
          show u.sys.client.subs.brxs[id]? = _
          rw [← hk]
          simp only [multi_recv, h1, if_pos hm]
          exact set_get_self h1 _
      · exact absurd rfl (hn _)

/-- Both ends occur: in `exLgPulled` the receive worker has ended, in `exLgLag` (see `exLg_lags`) it has not, and 64 messages wait. -/
example : (∃ y, exLgRuns exLgPulled LgSys.start = some y ∧ LgLine.disconnected ∈ y.term ∧ y.usb.sys.client.in_pc = .exited) ∧
    ∃ y, exLgRuns exLgLag LgSys.start = some y ∧ LgLine.disconnected ∈ y.term ∧
      ∃ (r : BRx), y.usb.sys.client.subs.brxs[0]? = some r ∧ r.pending.length = 64 ∧ r.lost = 1 := by
  constructor
  · have h : (exLgRuns exLgPulled LgSys.start).map (fun y => (decide (LgLine.disconnected ∈ y.term), y.usb.sys.client.in_pc)) =
        some (true, .exited) := by decide +kernel
    obtain ⟨y, h1, h2⟩ := Option.map_eq_some_iff.mp h
    simp only [Prod.mk.injEq, decide_eq_true_eq] at h2
    exact ⟨y, h1, h2⟩
  · have h : (exLgRuns exLgLag LgSys.start).map (fun y => (decide (LgLine.disconnected ∈ y.term),
        y.usb.sys.client.subs.brxs[0]?.map fun r => (r.pending.length, r.lost))) = some (true, some (64, 1)) := by decide +kernel
    obtain ⟨y, h1, h2⟩ := Option.map_eq_some_iff.mp h
    simp only [Prod.mk.injEq, decide_eq_true_eq] at h2
    obtain ⟨r, h3, h4⟩ := Option.map_eq_some_iff.mp h2.2
    simp only [Prod.mk.injEq] at h4
    exact ⟨y, h1, h2.1, r, h3, h4⟩

/-- C95: the host is not stuck.  If there is a message for it, or the client's receive worker has ended, it goes on. -/
theorem c95_goes_on (I : WbIcd) (U : UsbCfg LgVal E Unit Unit) (decode : Bytes → Option Bytes) {y : LgSys E} {id : Nat}
    (hp : y.pc = .receiving id) (h : (multi_recv y.usb.sys.client.subs id).1 ≠ none) : ∃ y', lg_step I U decode y .received = some y' := by
  obtain ⟨r, hr⟩ := Option.ne_none_iff_exists'.mp h
  have hs : ∃ u, u_step U y.usb (.client (.recv_multi id)) = some u := ⟨_, rfl⟩
  obtain ⟨u, hu⟩ := hs
  simp only [lg_step, hp, hu, hr]
  exact ⟨_, rfl⟩

/-- A message waits for the host. -/
example : ∃ y, exLgRuns (exLgBefore ++ .subscribed :: exLgTick 1) LgSys.start = some y ∧ y.pc = .receiving 0 ∧
    (multi_recv y.usb.sys.client.subs 0).1 ≠ none := by
  have h : (exLgRuns (exLgBefore ++ .subscribed :: exLgTick 1) LgSys.start).map
      (fun y => (y.pc, decide ((multi_recv y.usb.sys.client.subs 0).1 ≠ none))) = some (.receiving 0, true) := by decide +kernel
  obtain ⟨y, h1, h2⟩ := Option.map_eq_some_iff.mp h
  simp only [Prod.mk.injEq, decide_eq_true_eq] at h2
  exact ⟨y, h1, h2⟩

/-- C95: the frame that leaves the board for a log message is the one the model sends, whatever is in the transmit buffer: for `log_str` and for
`log_fmt`, and however the formatter cuts its text into pieces. -/
theorem c95_frames {wd : Nat} (hwd : wd = 2 ∨ wd = 4 ∨ wd = 8) (logging : Key) (kkind : VarKeyKind) (ctr : BitVec 16) {op : TxOp}
    (hop : LogOp kkind ctr op) (enc : Body LgVal → Bytes) (henc : ∀ v, enc (.val v) = enc_lg wd kkind v) (o : Nat → WriteOut) {t : EUsbTx}
    (ht : t.tx_buf.length = 1024) :
    ∃ b r t', frame_bytes enc ⟨⟨(VarKey.Key8 logging).shrink_to kkind, .Seq2 t.log_seq⟩, .val (log_msg ctr)⟩ = .ok b ∧
      eusb_op wd logging op o t = .ok (r, t') ∧ (r, t'.ep) = send_all o b t.ep ∧ t'.log_seq = t.log_seq + 1#16 ∧ t'.tx_buf.length = 1024 := by
  have hkey : (VarKey.Key8 logging).shrink_to kkind = log_key logging kkind := by cases kkind <;> rfl
  have hmsg : msg_text (log_msg ctr) = logged ctr.toNat := by
    have := msg_logged ctr.toNat
    rwa [BitVec.ofNat_toNat, BitVec.setWidth_eq] at this
  have hshort := msg_text_short (log_msg ctr)
  rw [hmsg] at hshort
  have hlen : encLen (VarHeader.mk (log_key logging kkind) (.Seq2 t.log_seq)) ≤ 11 := by
    rw [log_hdr_len]; cases kkind <;> decide
  refine ⟨encOf ⟨log_key logging kkind, .Seq2 t.log_seq⟩ ++ enc_lg wd kkind (log_msg ctr), ?_⟩
  have hb : frame_bytes enc ⟨⟨(VarKey.Key8 logging).shrink_to kkind, .Seq2 t.log_seq⟩, .val (log_msg ctr)⟩ =
      .ok (encOf ⟨log_key logging kkind, .Seq2 t.log_seq⟩ ++ enc_lg wd kkind (log_msg ctr)) := by
    rw [hkey, frame_bytes, write_to_vec_eq, Exec.ok_bind, henc]
  unfold LogOp at hop
  split at hop
  · rename_i hodd
    obtain ⟨kept, rfl⟩ := hop
    obtain ⟨r, t', e1, e2, e3, _, e4⟩ := eusb_send_msg_spec o ⟨log_key logging kkind, .Seq2 t.log_seq⟩ (ser_str wd (logged ctr.toNat) kept)
      { t with log_seq := t.log_seq + 1#16 }
    have hv : enc_lg wd kkind (log_msg ctr) = varint_usize wd (logged ctr.toNat).length ++ logged ctr.toNat := by
      have hm : log_msg ctr = .hello := by
        rw [log_msg, if_pos]
        have := (and_one ctr.toNat).mpr hodd
        rwa [BitVec.ofNat_toNat, BitVec.setWidth_eq] at this
      rw [hm] at hmsg ⊢
      rw [← hmsg]
      rfl
    refine ⟨r, t', hb, e1, ?_, e3, e2.trans ht⟩
    rw [hv]
    refine e4 ?_
    intro h
    rcases h with h | h
    · cases h
    · simp only [ser_str, List.length_append] at h
      rw [usize_one (by omega) (by omega)] at h
      simp only [List.length_cons, List.length_nil] at h
      omega
  · rename_i hodd
    obtain ⟨pieces, hp, rfl⟩ := hop
    have hv : enc_lg wd kkind (log_msg ctr) = log_fmt_body wd (1024 - log_header_len kkind) pieces.flatten := by
      have hm : log_msg ctr = .formatted ctr := by
        rw [log_msg, if_neg]
        intro h
        have := (and_one ctr.toNat).mp (by rwa [BitVec.ofNat_toNat, BitVec.setWidth_eq])
        exact hodd this
      rw [hm] at hmsg ⊢
      rw [hp, ← hmsg]
      rfl
    obtain ⟨rest, hf, hkeep⟩ := fmt_buf_body hwd ht logging kkind t.log_seq (pieces := pieces) (by rw [hp]; omega)
    rw [hv]
    generalize hx : encOf ⟨log_key logging kkind, .Seq2 t.log_seq⟩ ++ log_fmt_body wd (1024 - log_header_len kkind) pieces.flatten = x at hf hkeep ⊢
    refine ⟨(send_all o x t.ep).1, ⟨(send_all o x t.ep).2, t.log_seq + 1#16, x ++ rest⟩, ?_, ?_, rfl, rfl, ?_⟩
    · rw [hb, hv, hx]
    · show (log_fmt_buf wd t.tx_buf _ _ _ _).bind _ = _
      rw [hf]
      simp only [Exec.bind, List.take_left']
    · exact hkeep

/-- The formatted text `formatted: 2` comes in two pieces; the buffer is full of something else. -/
example : LogOp .Key1 2#16 (.send_log_fmt .Key1 [ascii "formatted: ".toList, ascii "2".toList] false) ∧
    LogOp .Key1 3#16 (.send_log_str .Key1 (ascii "Hello world!".toList) 0) ∧
    (EUsbTx.new (List.replicate 1024 0xAA#8)).tx_buf.length = 1024 := by
  refine ⟨⟨_, by decide +kernel, rfl⟩, ⟨0, by decide +kernel⟩, List.length_replicate⟩

end PRpc.Props
