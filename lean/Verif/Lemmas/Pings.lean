import Verif.Lemmas.Causes
import Verif.Lemmas.Ping
import Verif.Lemmas.ReplRun
import Verif.Lemmas.WorkbookLive
import Verif.Props.Failed
import Verif.Spec.Pings
/-! Helper lemmas for C96. -/

namespace PRpc

open Spec

variable {V E SC Ctx : Type}

/-- What C96 asks of the system. -/
structure PgSetup (a : App V E SC Ctx) (U : UsbCfg V E SC Ctx) (val : BitVec 32 → V) : Prop where
  sound : UsbSound U
  disp : Dispatches a U.S.disp
  decl : Declared a U.S.kkind
  kkind : U.S.kkind = U.S.disp.n
  apart : KeysApart a U.S
  resp_err : ∀ r ∈ a.endpoint_list.endpoints, short (keyLen U.S.kkind) r.resp ≠ short (keyLen U.S.kkind) a.std.error
  keys : a.std.schemas_req ≠ a.std.ping_req
  dec : U.S.disp.ping_decode = fun b => (from_bytes take_u32 b).map val
  enc : ∀ n, U.S.enc (.val (val n)) = enc_u32 n
  small : ∀ s, Small U.S s

/-! ### Steps -/

/-- The steps, one by one. -/
inductive PgStep (std : StdKeys) (U : UsbCfg V E SC Ctx) (y : PgSys V E SC Ctx) : PgLabel V → PgSys V E SC Ctx → Prop where
  | sys (l : ULabel V) (pc : PgPc) (u : UsbSys V E SC Ctx) : pg_allows std y.pc y.usb.sys.client.calls.length l = some pc →
      u_step U y.usb l = some u → PgStep std U y (.sys l) { y with usb := u, pc := pc }
  | tick (i : Nat) : y.pc = .ticking i →
      PgStep std U y .tick { y with pc := .calling i, term := y.term ++ [.pinging (BitVec.ofNat 32 i)] }
  | returned (i c : Nat) (cl : Call) (r : CallRes) : y.pc = .waiting i c → y.usb.sys.client.calls[c]? = some cl → cl.phase = .done r →
      PgStep std U y .returned { y with pc := (pg_returned i r).2, term := y.term ++ (pg_returned i r).1 }
  | closed : y.pc.live = true → y.usb.sys.client.stopped = true →
      PgStep std U y .closed { y with pc := .closed, term := y.term ++ [.closed] }

theorem pg_step_cases {std : StdKeys} {U : UsbCfg V E SC Ctx} {y y' : PgSys V E SC Ctx} {l : PgLabel V} (h : pg_step std U y l = some y') :
    PgStep std U y l y' := by
  cases l with
  | sys l =>
    simp only [pg_step] at h
    split at h
    · cases h
    · rename_i pc hp
      split at h
      · cases h
      · rename_i u hu
        cases h
        exact .sys l pc u hp hu
  | tick =>
    simp only [pg_step] at h
    split at h
    · rename_i i hp
      cases h
      exact .tick i hp
    · cases h
  | returned =>
    simp only [pg_step] at h
    split at h
    · rename_i i c hp
      split at h
      · cases h
      · rename_i cl hc
        split at h
        · rename_i r hr
          cases h
          exact .returned i c cl r hp hc hr
        · cases h
    · cases h
  | closed =>
    simp only [pg_step] at h
    split at h
    · rename_i hp
      cases h
      exact .closed hp.1 hp.2
    · cases h

theorem pg_run_cons {std : StdKeys} {U : UsbCfg V E SC Ctx} {y y' : PgSys V E SC Ctx} {l : PgLabel V} {ls : List (PgLabel V)}
    (h : pg_run std U (l :: ls) y = some y') : ∃ y1, pg_step std U y l = some y1 ∧ pg_run std U ls y1 = some y' := by
  simp only [pg_run] at h
  split at h
  · rename_i y1 hs
    exact ⟨y1, hs, h⟩
  · cases h

/-- The application without its incoming topics, on which the program publishes nothing. -/
def silent (a : App V E SC Ctx) : App V E SC Ctx := { a with topic_in_list := { a.topic_in_list with topics := [] } }

theorem silent_used {a : App V E SC Ctx} {l : ULabel V} (h : UsbUsed (silent a) l) : UsbUsed a l := by
  cases l with
  | client l =>
    cases l with
    | pub_begin f => obtain ⟨t, ht, _⟩ := h; cases ht
    | _ => exact h
  | _ => exact h

theorem pg_allows_cases (a : App V E SC Ctx) (hp : ∃ r ∈ a.endpoint_list.endpoints, r.req = a.std.ping_req ∧ r.resp = a.std.ping_resp) {pc pc' : PgPc} {n : Nat}
    {l : ULabel V} (h : pg_allows a.std pc n l = some pc') (hl : ∀ key seq v, l = .app_publish key seq v → ∃ t ∈ a.topic_out_list.topics, t.key = key) :
    (UsbUsed (silent a) l ∧ UsbListens a l) ∧
    ((∃ i, pc = .calling i ∧ pc' = .waiting i n ∧ l = .client (.call_begin a.std.ping_req a.std.ping_resp (enc_u32 (BitVec.ofNat 32 i)))) ∨
     (pc' = pc ∧ (∀ req resp body, l ≠ .client (.call_begin req resp body)) ∧ (∀ rqst resp, l ≠ .client (.call_begin_raw rqst resp)))) := by
  cases l with
  | client l =>
    cases l
    case call_begin req resp body =>
      simp only [pg_allows] at h
      split at h
      · rename_i i
        split at h
        · rename_i hq
          obtain ⟨rfl, rfl, rfl⟩ := hq
          exact ⟨⟨hp, trivial⟩, .inl ⟨i, rfl, (Option.some.inj h).symm, rfl⟩⟩
        · cases h
      · cases h
    all_goals first
      | (cases h; done)
      | (simp only [pg_allows] at h
         split at h
         · exact ⟨⟨trivial, trivial⟩, .inr ⟨(Option.some.inj h).symm, (fun _ _ _ e => by cases e), (fun _ _ e => by cases e)⟩⟩
         · cases h)
  | app_publish key seq v => exact ⟨⟨hl key seq v rfl, trivial⟩, .inr ⟨(Option.some.inj h).symm, (fun _ _ _ e => by cases e), (fun _ _ e => by cases e)⟩⟩
  | _ => exact ⟨⟨trivial, trivial⟩, .inr ⟨(Option.some.inj h).symm, (fun _ _ _ e => by cases e), (fun _ _ e => by cases e)⟩⟩

/-- Handles and futures are kept. -/
theorem pg_keeps {std : StdKeys} {U : UsbCfg V E SC Ctx} {u u' : UsbSys V E SC Ctx} {l : ULabel V} {pc pc' : PgPc} {n : Nat}
    (hq : pg_allows std pc n l = some pc') (h : u_step U u l = some u')
    (k : u.sys.client.handles = true ∧ ∀ cl ∈ u.sys.client.calls, cl.phase ≠ .dropped) :
    u'.sys.client.handles = true ∧ ∀ cl ∈ u'.sys.client.calls, cl.phase ≠ .dropped := by
  rcases u_step_client h with ⟨l', rfl, hs⟩ | ⟨_, e⟩
  · exact ⟨step_handles hs k.1 (fun e => by subst e; cases hq), step_undropped hs (fun c e => by subst e; cases hq) k.2⟩
  · rw [e]; exact k

/-! ### What a `ping` returns -/

theorem pg_sysInv {a : App V E SC Ctx} {U : UsbCfg V E SC Ctx} {val : BitVec 32 → V} (S : PgSetup a U val) {us : List (ULabel V)} {c0 : Ctx}
    {u : UsbSys V E SC Ctx} (hrun : u_run U us (UsbSys.new c0) = some u) (hu : ∀ l ∈ us, UsbUsed (silent a) l) :
    ∃ ls', sys_run U.S ls' (Sys.new c0) = some u.abs ∧ SysInv a U.S u.abs ∧ u.abs.client.pubs = [] := by
  obtain ⟨_, ls', hr', hst⟩ := sim_run S.sound.buffer S.sound.some_buffer (usbInv_new U.S c0) (S.small u.sys) hrun
  refine ⟨ls', hr', sys_run_inv hr' (fun l' hl' => ?_) (sysInv_new a U.S c0), ?_⟩
  · obtain ⟨l, hl, h⟩ := hst l' hl'
    exact stands_used h (silent_used (hu l hl))
  · have inv := sys_run_inv (a := silent a) hr' (fun l' hl' => by
      obtain ⟨l, hl, h⟩ := hst l' hl'
      exact stands_used h (hu l hl)) (sysInv_new (silent a) U.S c0)
    cases e : u.abs.client.pubs with
    | nil => rfl
    | cons p ps =>
      obtain ⟨t, ht, _⟩ := inv.pubs 0 p (by rw [e]; rfl)
      cases ht

theorem pg_ping {a : App V E SC Ctx} {U : UsbCfg V E SC Ctx} {val : BitVec 32 → V} (S : PgSetup a U val) {us : List (ULabel V)} {c0 : Ctx}
    {u : UsbSys V E SC Ctx} (hrun : u_run U us (UsbSys.new c0) = some u) (hu : ∀ l ∈ us, UsbUsed (silent a) l)
    (hlen : u.sys.client.calls.length < 2 ^ 32) {c : Nat} {cl : Call} {r : CallRes} {m : BitVec 32} (hc : u.sys.client.calls[c]? = some cl)
    (hk : cl.rqst.header.key = .Key8 a.std.ping_req) (hb : cl.rqst.body = enc_u32 m) (hr : cl.phase = .done r) {n : BitVec 32}
    (hn : wb_result (.ping m) r = .num n) : n = m := by
  obtain ⟨ls', hr', inv, _⟩ := pg_sysInv S hrun hu
  obtain ⟨f, i, rfl⟩ := wb_result_resp (m := .ping m) (r := r) (by rw [hn]; nofun)
  have hv : from_bytes take_u32 f.body = some n := by
    simp only [wb_result, finish_call] at hn
    cases hd : from_bytes take_u32 f.body with
    | none => rw [hd] at hn; cases hn
    | some v => rw [hd] at hn; cases hn; rfl
  exact ping_value S.disp S.decl S.apart S.resp_err S.keys S.dec S.enc (s := u.abs) inv (sys_run_new_old hr') hlen hc hk hb hr hv

/-! ### The program -/

/-- The number of pings begun. -/
def PgPc.count (n : Nat) : PgPc → Prop
  | .ticking i => n = i
  | .calling i => n = i
  | .waiting i c => c = i ∧ n = i + 1
  | _ => n ≤ 10

/-- What holds throughout: the system has run, the calls are pings of 0, 1, 2, …, the terminal shows them. -/
structure PgInv (a : App V E SC Ctx) (U : UsbCfg V E SC Ctx) (c0 : Ctx) (y : PgSys V E SC Ctx) (us : List (ULabel V)) : Prop where
  run : u_run U us (UsbSys.new c0) = some y.usb
  used : ∀ l ∈ us, UsbUsed (silent a) l ∧ UsbListens a l
  calls : ∀ (k : Nat) (cl : Call), y.usb.sys.client.calls[k]? = some cl →
    cl.rqst.header.key = .Key8 a.std.ping_req ∧ cl.rqst.body = enc_u32 (BitVec.ofNat 32 k)
  count : y.pc.count y.usb.sys.client.calls.length
  kept : y.usb.sys.client.handles = true ∧ ∀ cl ∈ y.usb.sys.client.calls, cl.phase ≠ .dropped
  shows : PgShows y.pc y.term

theorem pgInv_start (a : App V E SC Ctx) (U : UsbCfg V E SC Ctx) (c0 : Ctx) : PgInv a U c0 (PgSys.start c0) [] where
  run := rfl
  used := nofun
  calls := nofun
  count := rfl
  kept := ⟨rfl, by intro cl h; cases h⟩
  shows := .between 0 (by decide)

theorem PgInv.few {a : App V E SC Ctx} {U : UsbCfg V E SC Ctx} {c0 : Ctx} {y : PgSys V E SC Ctx} {us : List (ULabel V)} (inv : PgInv a U c0 y us) :
    y.usb.sys.client.calls.length ≤ 10 := by
  have main : ∀ {pc : PgPc} {t : List PgLine} {n : Nat}, PgShows pc t → pc.count n → n ≤ 10 := by
    intro pc t n hs h
    cases hs <;> simp only [PgPc.count] at h <;> omega
  exact main inv.shows inv.count

theorem rounds_succ (k : Nat) : rounds (k + 1) = rounds k ++ [.pinging (BitVec.ofNat 32 k), .got (BitVec.ofNat 32 k)] := by
  simp [rounds, List.range_succ]

theorem pg_inv_step {a : App V E SC Ctx} {U : UsbCfg V E SC Ctx} {val : BitVec 32 → V} (S : PgSetup a U val) {c0 : Ctx} {y y' : PgSys V E SC Ctx}
    {us : List (ULabel V)} (inv : PgInv a U c0 y us) {l : PgLabel V} (h : pg_step a.std U y l = some y')
    (hl : ∀ key seq v, l = .sys (.app_publish key seq v) → ∃ t ∈ a.topic_out_list.topics, t.key = key) :
    ∃ us', PgInv a U c0 y' (us ++ us') := by
  have hfew := inv.few
  cases pg_step_cases h with
  | sys k pc u hq hu =>
    obtain ⟨hused, hcase⟩ := pg_allows_cases a S.decl.ping hq (fun key seq v e => hl key seq v (by rw [e]))
    refine ⟨[k], ?_⟩
    have hrun : u_run U (us ++ [k]) (UsbSys.new c0) = some u := u_run_append inv.run (by simp only [u_run, hu])
    have hus : ∀ l ∈ us ++ [k], UsbUsed (silent a) l ∧ UsbListens a l := by
      intro l hl
      rcases List.mem_append.mp hl with h | h
      · exact inv.used l h
      · rw [List.mem_singleton.mp h]; exact hused
    rcases hcase with ⟨i, e1, rfl, rfl⟩ | ⟨rfl, n1, n2⟩
    · obtain ⟨cl, e, h1, _, h3⟩ := u_step_begin hu
      have hc := inv.count
      have hs := inv.shows
      rw [e1] at hc hs
      have hc : y.usb.sys.client.calls.length = i := hc
      refine ⟨hrun, hus, ?_, ?_, pg_keeps hq hu inv.kept, ?_⟩
      · intro k cl' hk
        rw [show (PgSys.usb { y with usb := u, pc := PgPc.waiting i y.usb.sys.client.calls.length }) = u from rfl, e] at hk
        by_cases hlt : k < y.usb.sys.client.calls.length
        · rw [List.getElem?_append_left hlt] at hk
          exact inv.calls k cl' hk
        · rw [List.getElem?_append_right (by omega)] at hk
          have : k - y.usb.sys.client.calls.length = 0 := by
            have := getElem?_lt hk
            simp only [List.length_cons, List.length_nil] at this
            omega
          rw [this] at hk
          cases hk
          have hki : k = i := by omega
          rw [hki]
          exact ⟨h1, h3⟩
      · show y.usb.sys.client.calls.length = i ∧ u.sys.client.calls.length = i + 1
        rw [e, List.length_append, hc]
        exact ⟨rfl, rfl⟩
      · have hterm := hs
        revert hterm
        generalize y.term = t
        intro hterm
        cases hterm with
        | asks _ hk => exact .waits _ _ hk
    · have same := u_step_same hu n1 n2
      refine ⟨hrun, hus, ?_, ?_, pg_keeps hq hu inv.kept, inv.shows⟩
      · intro k cl hk
        obtain ⟨cl0, h1, h2⟩ := same_sig same hk
        have := inv.calls k cl0 h1
        rw [h2] at this
        exact this
      · have hlen := congrArg List.length same
        simp only [List.length_map] at hlen
        show y.pc.count u.sys.client.calls.length
        rw [hlen]
        exact inv.count
  | tick i hp =>
    refine ⟨[], ?_⟩
    have hc := inv.count
    have hs := inv.shows
    rw [hp] at hc hs
    rw [List.append_nil]
    refine ⟨inv.run, inv.used, inv.calls, hc, inv.kept, ?_⟩
    show PgShows (.calling i) (y.term ++ _)
    revert hs
    generalize y.term = t
    intro hs
    cases hs with
    | between _ hk => exact .asks _ hk
  | returned i c cl r hp hc hr =>
    refine ⟨[], ?_⟩
    have hcnt := inv.count
    have hs := inv.shows
    rw [hp] at hcnt hs
    obtain ⟨rfl, hlen⟩ := hcnt
    obtain ⟨hk, hb⟩ := inv.calls c cl hc
    rw [List.append_nil]
    have : PgPc.count y.usb.sys.client.calls.length (pg_returned c r).2 ∧ PgShows (pg_returned c r).2 (y.term ++ (pg_returned c r).1) := by
      revert hs
      generalize y.term = t
      intro hs
      cases hs with
      | waits _ _ hlt =>
        unfold pg_returned
        cases hn : wb_result (.ping (BitVec.ofNat 32 c)) r with
        | num v =>
          have := pg_ping S inv.run (fun l h => (inv.used l h).1) (by omega) hc hk hb hr hn
          subst this
          simp only [ne_eq, not_true_eq_false, if_false]
          split
          · rename_i h10
            refine ⟨hlen, ?_⟩
            rw [List.append_assoc, List.singleton_append, ← rounds_succ]
            exact .between _ h10
          · have : c = 9 := by omega
            subst this
            refine ⟨by show y.usb.sys.client.calls.length ≤ 10; omega, ?_⟩
            have : (rounds 9 ++ [PgLine.pinging (BitVec.ofNat 32 9)] ++ [PgLine.got (BitVec.ofNat 32 9), PgLine.done]) = rounds 10 ++ [.done] := by
              rw [rounds_succ 9, List.append_assoc, List.append_assoc]
              rfl
            rw [this]
            exact .done
        | _ => exact ⟨by show y.usb.sys.client.calls.length ≤ 10; omega, by rw [List.append_nil]; exact .fails _ hlt⟩
    exact ⟨inv.run, inv.used, inv.calls, this.1, inv.kept, this.2⟩
  | closed hlive hst =>
    refine ⟨[], ?_⟩
    rw [List.append_nil]
    refine ⟨inv.run, inv.used, inv.calls, hfew, inv.kept, ?_⟩
    show PgShows .closed (y.term ++ [.closed])
    have hs := inv.shows
    revert hs hlive
    generalize y.term = t
    generalize y.pc = pc
    intro hlive hs
    cases hs with
    | between k hk => exact .closed _ hk
    | asks k hk => rw [List.append_assoc]; exact .closed_asking _ hk
    | waits k c hk => rw [List.append_assoc]; exact .closed_asking _ hk
    | _ => cases hlive

theorem pg_inv_run {a : App V E SC Ctx} {U : UsbCfg V E SC Ctx} {val : BitVec 32 → V} (S : PgSetup a U val) {c0 : Ctx} {ls : List (PgLabel V)} :
    ∀ {y y' : PgSys V E SC Ctx} {us : List (ULabel V)}, PgInv a U c0 y us → pg_run a.std U ls y = some y' → PgUsed a ls → ∃ us', PgInv a U c0 y' us' := by
  induction ls with
  | nil => intro y y' us inv h _; cases h; exact ⟨us, inv⟩
  | cons l ls ih =>
    intro y y' us inv h hu
    obtain ⟨y1, hs, hr⟩ := pg_run_cons h
    obtain ⟨us', inv'⟩ := pg_inv_step S inv hs (fun key seq v e => hu key seq v (by rw [e]; exact List.mem_cons_self ..))
    exact ih inv' hr (fun key seq v hm => hu key seq v (List.mem_cons_of_mem _ hm))

end PRpc
