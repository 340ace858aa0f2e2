import Verif.Lemmas.Pings
/-! Helper lemmas for C96: the program comes to its end. -/

namespace PRpc

open Spec

variable {V E SC Ctx : Type} {a : App V E SC Ctx} {U : UsbCfg V E SC Ctx} {val : BitVec 32 → V}

/-! ### Liveness of the system -/

theorem pg_live (S : PgSetup a U val) (hF : Fits a U.S) {c0 : Ctx} {y : PgSys V E SC Ctx} {us : List (ULabel V)} (inv : PgInv a U c0 y us) :
    UsbLive a U y.usb ∧ RequestsFit U y.usb.sys := by
  obtain ⟨ls', hr, si, hp⟩ := pg_sysInv S inv.run (fun l h => (inv.used l h).1)
  have hfit : RequestsFit U y.usb.abs := by
    intro b hb
    obtain ⟨j, hj⟩ := List.mem_iff_getElem?.mp hb
    obtain ⟨f, hf, he⟩ := reachable_tx si.reach hj
    rw [RpcFrame.to_bytes, write_to_vec_eq] at he
    have hfr : IsFrame b f.header f.body := by
      cases he
      exact (isFrame_iff ..).mpr (take_enc ..)
    have h1 := isFrame_len hfr
    have h2 : f.body.length ≤ 5 := by
      rcases reachable_enqOk si.reach (sys_consist S.disp S.decl si) f hf with ⟨c, cl, k, g1, _, g3⟩ | ⟨p, pb, k, g1, _, g3⟩
      · have : f.body = cl.rqst.body := by rw [g3]; rfl
        rw [this, (inv.calls c cl g1).2]
        exact (enc_u32_len _).2
      · rw [hp] at g1
        cases g1
    obtain ⟨q, hq⟩ := S.sound.buffer
    have := S.sound.some_buffer
    omega
  have hfit : RequestsFit U y.usb.sys := hfit
  have := inv.few
  exact ⟨usb_run_live S.disp S.decl hF S.sound (usbLive_new _ U c0) (S.small _) hfit (by omega)
    (fun l h => ⟨silent_used (inv.used l h).1, (inv.used l h).2⟩) inv.run, hfit⟩

/-- A ping that has come back while the client was not stopped brings the number sent. -/
theorem pg_answered (S : PgSetup a U val) (hF : Fits a U.S) {c0 : Ctx} {y : PgSys V E SC Ctx} {us : List (ULabel V)} (inv : PgInv a U c0 y us)
    (hst : y.usb.sys.client.stopped = false) {c : Nat} {cl : Call} {r : CallRes} (hc : y.usb.sys.client.calls[c]? = some cl) (hr : cl.phase = .done r) :
    wb_result (.ping (BitVec.ofNat 32 c)) r = .num (BitVec.ofNat 32 c) := by
  obtain ⟨lv, _⟩ := pg_live S hF inv
  obtain ⟨ls', hrun, si, hpubs⟩ := pg_sysInv S inv.run (fun l h => (inv.used l h).1)
  have einv := sys_run_errInv hrun (ctxInv_new c0 U.S) (errInv_new U.S c0)
  obtain ⟨hk, hb⟩ := inv.calls c cl hc
  have hlen : y.usb.abs.client.calls.length < 2 ^ 32 := by
    have := inv.few
    show y.usb.sys.client.calls.length < 2 ^ 32
    omega
  obtain ⟨n1, n2⟩ := lv.live.ended hst c cl r hc hr
  cases r with
  | Closed => exact absurd rfl n1
  | BadResponse => exact absurd rfl n2
  | Resp f i =>
    have hbody := ping_body S.disp S.decl S.apart S.resp_err S.keys S.dec si (sys_run_new_old hrun) hlen (s := y.usb.abs) hc hk hb hr
    obtain ⟨o, ho, h1, h2⟩ := hbody
    have := (h1.whole (lv.whole.outs o ho)).2
    rw [h2, S.enc] at this
    simp only [wb_result, finish_call, this, reads_from (reads_u32 _)]
    rfl
  | ErrResp f i =>
    exfalso
    obtain ⟨o, hout, j, hdr, body, e, g1, g2, g3, g4, ⟨q, rfl, _⟩ | ⟨p, pb, hp, _⟩⟩ := Props.error_cause a U.S S.disp S.decl hF.err_key
      S.resp_err hF.topic_err si einv hlen (s := y.usb.abs) hc (f := f) (i := i) (by rw [result, hr])
    · obtain ⟨b, b1, b2⟩ := g4.sent
      have hlong := taken_long S.disp S.decl (by rw [S.kkind]; exact Nat.le_refl _) si b1 b2
      obtain ⟨ctx, ctx', _, _, hw⟩ := g4.why
      have hrx : rxShort U.S.disp hdr = short (keyLen U.S.disp.n) a.std.ping_req := by
        rcases taken_origin S.disp S.decl si ⟨b, b1, (isFrame_iff ..).mp b2⟩ with ⟨c', cl', r', k, hc', hr', ek', er', eh, eb, erx⟩ | ⟨p, pb, hp, t, ht', es, _⟩
        · have esq : hdr.seq_no = cl'.rqst.header.seq_no := by rw [eh]; rfl
          cases q.only c' cl' hc' (by rw [esq])
          cases hc'.symm.trans hc
          rw [erx hlong, VarKey.Key8.inj (ek'.symm.trans hk)]
        · rw [hpubs] at hp; cases hp
      have notEp : ∀ {h : EpHandler V Ctx}, ForEndpoint U.S.disp hdr h → False := by
        intro h hh
        refine hh.notStd.1 ?_
        rw [hrx, S.disp.std]
      cases hw with
      | key_too_small h => exact h hlong
      | unknown _ h =>
        refine h U.S.disp.std.ping_req (List.mem_append_left _ (List.mem_append_left _ (List.mem_cons_self ..))) ?_
        rw [hrx, S.disp.std]
      | ping_undecodable _ _ h =>
        rw [S.dec, hb] at h
        simp only [reads_from (reads_u32 _)] at h
        cases h
      | undecodable h hf => exact notEp hf
      | unsent h g v fr x hf => exact notEp hf
      | unspawned h v hf => exact notEp hf
    · rw [hpubs] at hp; cases hp

/-! ### Rest -/

theorem pg_allows_pc {std : StdKeys} {pc pc' : PgPc} {n : Nat} {l : ULabel V} (hq : pg_allows std pc n l = some pc') :
    pc' = pc ∨ ∃ i n, pc' = .waiting i n ∧ ∃ req resp body, l = .client (.call_begin req resp body) := by
  cases l with
  | client l =>
    cases l
    case call_begin req resp body =>
      simp only [pg_allows] at hq
      split at hq
      · split at hq
        · exact .inr ⟨_, _, (Option.some.inj hq).symm, _, _, _, rfl⟩
        · cases hq
      · cases hq
    all_goals first
      | (cases hq; done)
      | (simp only [pg_allows] at hq
         split at hq
         · exact .inl (Option.some.inj hq).symm
         · cases hq)
  | _ => exact .inl (Option.some.inj hq).symm

theorem pg_own_allowed {std : StdKeys} {pc : PgPc} {n : Nat} {u : UsbSys V E SC Ctx} {l : ULabel V} (hl : pc.live = true) (ho : UsbOwn u l) :
    pg_allows std pc n l = some pc := by
  cases l with
  | client l =>
    cases l <;> first
      | (simp only [pg_allows, hl, if_true]; done)
      | exact (ho : False).elim
  | app_publish => exact (ho : False).elim
  | _ => rfl

theorem pg_own_of {y : PgSys V E SC Ctx} {l : ULabel V} (ho : UsbOwn y.usb l) : PgOwn y (.sys l) := by
  cases l with
  | client l => cases l <;> first | exact ho | trivial
  | _ => exact ho

theorem pg_own_cases {y : PgSys V E SC Ctx} {l : ULabel V} (ho : PgOwn y (.sys l)) :
    (∃ req resp body, l = .client (.call_begin req resp body)) ∨ UsbOwn y.usb l := by
  cases l with
  | client l => cases l <;> first | exact .inl ⟨_, _, _, rfl⟩ | exact .inr ho
  | _ => exact .inr ho

/-- Nothing is left to do only after the end of the program. -/
theorem pg_stuck_over (S : PgSetup a U val) (hF : Fits a U.S) (hd : 0 < U.S.cfg.outgoing_depth) {c0 : Ctx} {y : PgSys V E SC Ctx}
    {us : List (ULabel V)} (inv : PgInv a U c0 y us) (hst : y.usb.sys.client.stopped = false) (h : PgStuck a.std U y) : y.pc.live = false := by
  cases hp : y.pc with
  | ticking i =>
    have := h .tick trivial
    simp only [pg_step, hp] at this
    cases this
  | calling i =>
    exfalso
    have := h (.sys (.client (.call_begin a.std.ping_req a.std.ping_resp (enc_u32 (BitVec.ofNat 32 i))))) trivial
    have ht : u_step U y.usb (.client (.call_begin a.std.ping_req a.std.ping_resp (enc_u32 (BitVec.ofNat 32 i)))) ≠ none := by
      refine u_client_total ?_ (.inl nofun)
      simp [client_step, step, inv.kept.1]
    simp only [pg_step, pg_allows, hp, and_self, if_true] at this
    split at this
    · rename_i e; exact ht e
    · cases this
  | waiting i c =>
    exfalso
    have hlive : y.pc.live = true := by rw [hp]; rfl
    have hust : UsbStuck U y.usb := by
      intro l ho
      have := h (.sys l) (pg_own_of ho)
      simp only [pg_step, pg_own_allowed hlive ho] at this
      split at this
      · assumption
      · cases this
    obtain ⟨lv, _⟩ := pg_live S hF inv
    have hopen : Open y.usb.sys := ⟨hst, inv.kept.1⟩
    obtain ⟨h1, _⟩ := usb_stuck S.sound hF lv hopen hust
    have hcnt := inv.count
    rw [hp] at hcnt
    obtain ⟨rfl, hl⟩ := hcnt
    have hc : y.usb.sys.client.calls[c]? = some (y.usb.sys.client.calls[c]'(by omega)) := List.getElem?_eq_getElem (by omega)
    generalize y.usb.sys.client.calls[c]'(by omega) = cl at hc
    rcases rest_answered lv.sys lv.live (stuck_atRest hd hF lv.sys lv.live hopen h1) (c := c) hc with hx | ⟨err, f, i, hres⟩
    · exact inv.kept.2 cl (List.mem_of_getElem? hc) hx
    · have hphase : cl.phase = .done (if err then .ErrResp f i else .Resp f i) := by
        unfold result at hres
        split at hres <;> cases hres <;> assumption
      have := h .returned trivial
      simp only [pg_step, hp, hc, hphase] at this
      cases this
  | _ => rfl

/-- While the client is not stopped the program neither panics nor says that it is closed. -/
theorem pg_fine_step (S : PgSetup a U val) (hF : Fits a U.S) {c0 : Ctx} {y y' : PgSys V E SC Ctx} {us : List (ULabel V)} (inv : PgInv a U c0 y us)
    {l : PgLabel V} (h : pg_step a.std U y l = some y') (h0 : y.usb.sys.client.stopped = false → y.pc ≠ .unwrapped ∧ y.pc ≠ .closed)
    (hst : y'.usb.sys.client.stopped = false) : y'.pc ≠ .unwrapped ∧ y'.pc ≠ .closed := by
  cases pg_step_cases h with
  | sys k pc u hq hu =>
    have hst0 : y.usb.sys.client.stopped = false := by
      rcases u_step_client hu with ⟨l', rfl, hs⟩ | ⟨_, e⟩
      · exact stopped_back hs hst
      · rw [← e]; exact hst
    have := h0 hst0
    rcases pg_allows_pc hq with rfl | ⟨i, n, rfl, _⟩
    · exact this
    · exact ⟨nofun, nofun⟩
  | tick i hp => exact ⟨nofun, nofun⟩
  | returned i c cl r hp hc hr =>
    have hcnt := inv.count
    rw [hp] at hcnt
    obtain ⟨rfl, _⟩ := hcnt
    show (pg_returned c r).2 ≠ .unwrapped ∧ (pg_returned c r).2 ≠ .closed
    unfold pg_returned
    rw [pg_answered S hF inv hst hc hr]
    simp only [ne_eq, not_true_eq_false, if_false]
    split <;> exact ⟨nofun, nofun⟩
  | closed _ hs => exact absurd (hs.symm.trans hst) nofun

/-! ### Termination -/

/-- How much the program has left to do. -/
def PgPc.rank : PgPc → Nat
  | .ticking i => 3 * (10 - i)
  | .calling i => 3 * (10 - i) - 1
  | .waiting i _ => 3 * (10 - i) - 2
  | _ => 0

theorem pg_rank (S : PgSetup a U val) {c0 : Ctx} {y y' : PgSys V E SC Ctx} {us : List (ULabel V)} (inv : PgInv a U c0 y us)
    {l : PgLabel V} (h : pg_step a.std U y l = some y') (ho : PgOwn y l) :
    y'.pc.rank < y.pc.rank ∨ y'.pc = y.pc ∧ ∃ k, UsbOwn y.usb k ∧ u_step U y.usb k = some y'.usb := by
  have hs := inv.shows
  have lt : ∀ {pc : PgPc} {t : List PgLine}, PgShows pc t → pc.live = true → 0 < pc.rank ∧
      (∀ i, pc = .ticking i → PgPc.rank (.calling i) < pc.rank) ∧ (∀ i n, pc = .calling i → PgPc.rank (.waiting i n) < pc.rank) ∧
      (∀ i n, pc = .waiting i n → PgPc.rank (.ticking (i + 1)) < pc.rank) := by
    intro pc t hs hl
    cases hs with
    | between k hk => exact ⟨by simp only [PgPc.rank]; omega, fun i e => by cases e; simp only [PgPc.rank]; omega, nofun, nofun⟩
    | asks k hk => exact ⟨by simp only [PgPc.rank]; omega, nofun, fun i n e => by cases e; simp only [PgPc.rank]; omega, nofun⟩
    | waits k c hk => exact ⟨by simp only [PgPc.rank]; omega, nofun, nofun, fun i n e => by cases e; simp only [PgPc.rank]; omega⟩
    | _ => cases hl
  cases pg_step_cases h with
  | sys k pc u hq hu =>
    rcases pg_own_cases ho with ⟨req, resp, body, rfl⟩ | hown
    · left
      simp only [pg_allows] at hq
      split at hq
      · rename_i i hp
        split at hq
        · cases hq
          rw [hp] at hs
          have := (lt hs rfl).2.2.1 i y.usb.sys.client.calls.length rfl
          rw [hp]
          exact this
        · cases hq
      · cases hq
    · right
      refine ⟨?_, k, hown, hu⟩
      rcases pg_allows_pc hq with e | ⟨i, n, e, req, resp, body, rfl⟩
      · exact e
      · exact (hown : False).elim
  | tick i hp =>
    left
    rw [hp] at hs ⊢
    exact (lt hs rfl).2.1 i rfl
  | returned i c cl r hp hc hr =>
    left
    rw [hp] at hs ⊢
    have := lt hs rfl
    show PgPc.rank (pg_returned i r).2 < _
    unfold pg_returned
    cases wb_result (.ping (BitVec.ofNat 32 i)) r with
    | num n =>
      simp only
      split
      · exact this.1
      · split
        · exact this.2.2.2 i c rfl
        · exact this.1
    | _ => exact this.1
  | closed hl _ => exact .inl (lt hs hl).1

theorem pg_own_used {y : PgSys V E SC Ctx} {l : PgLabel V} (ho : PgOwn y l) :
    ∀ key seq v, l = .sys (.app_publish key seq v) → ∃ t ∈ a.topic_out_list.topics, t.key = key := by
  rintro key seq v rfl
  exact (ho : False).elim

/-- Left to itself it does not go on for ever. -/
theorem pg_finite (S : PgSetup a U val) (hF : Fits a U.S) {c0 : Ctx} {y : PgSys V E SC Ctx} {us : List (ULabel V)} (inv : PgInv a U c0 y us) :
    ¬ ∃ (f : Nat → PgSys V E SC Ctx) (g : Nat → PgLabel V), f 0 = y ∧ ∀ n, PgOwn (f n) (g n) ∧ pg_step a.std U (f n) (g n) = some (f (n + 1)) := by
  rintro ⟨f, g, h0, hf⟩
  have good : ∀ n, ∃ us, PgInv a U c0 (f n) us := by
    intro n
    induction n with
    | zero => exact ⟨us, h0 ▸ inv⟩
    | succ n ih =>
      obtain ⟨us, i⟩ := ih
      obtain ⟨us', i'⟩ := pg_inv_step S i (hf n).2 (pg_own_used (hf n).1)
      exact ⟨_, i'⟩
  have main : ∀ r, ∀ m, (f m).pc.rank = r → False := by
    intro r
    induction r using Nat.strongRecOn with
    | _ r ih =>
      intro m hm
      have same : ∀ n, (f (m + n)).pc.rank = r := by
        intro n
        induction n with
        | zero => exact hm
        | succ n ihn =>
          obtain ⟨us, i⟩ := good (m + n)
          rcases pg_rank S i (hf (m + n)).2 (hf (m + n)).1 with h | ⟨e, _⟩
          · exact (ih _ (ihn ▸ h) _ rfl).elim
          · rw [← ihn, ← e]; rfl
      have own : ∀ n, ∃ k, UsbOwn (f (m + n)).usb k ∧ u_step U (f (m + n)).usb k = some (f (m + (n + 1))).usb := by
        intro n
        obtain ⟨us, i⟩ := good (m + n)
        rcases pg_rank S i (hf (m + n)).2 (hf (m + n)).1 with h | ⟨_, k⟩
        · rw [same n, show (f (m + n + 1)).pc.rank = r from same (n + 1)] at h
          exact absurd h (Nat.lt_irrefl _)
        · exact k
      obtain ⟨us, i⟩ := good m
      obtain ⟨lv, _⟩ := pg_live S hF i
      have := i.few
      refine usb_own_finite S.disp S.decl hF S.sound lv (by omega) ⟨fun n => (f (m + n)).usb, fun n => (own n).choose, rfl, fun n => ?_⟩
      obtain ⟨us, i⟩ := good (m + n)
      exact ⟨⟨S.small _, (pg_live S hF i).2⟩, (own n).choose_spec⟩
  exact main _ 0 rfl

theorem pg_own_snoc {std : StdKeys} {y z w : PgSys V E SC Ctx} {own : List (PgLabel V)} {l : PgLabel V} (h : PgOwnRun std U y own z) (ho : PgOwn z l)
    (hs : pg_step std U z l = some w) : PgOwnRun std U y (own ++ [l]) w := by
  induction h with
  | nil y => exact .cons ho hs (.nil _)
  | cons ho' h' _ ih => exact .cons ho' h' (ih ho hs)

/-- Left to itself it can go on until nothing is left to do. -/
theorem pg_to_stuck (S : PgSetup a U val) (hF : Fits a U.S) {c0 : Ctx} {y : PgSys V E SC Ctx} {us : List (ULabel V)} (inv : PgInv a U c0 y us) :
    ∃ own z, PgOwnRun a.std U y own z ∧ PgStuck a.std U z := by
  refine Classical.byContradiction fun hno => ?_
  have next : ∀ z : { z // ∃ own, PgOwnRun a.std U y own z }, ∃ (l : PgLabel V) (w : { z // ∃ own, PgOwnRun a.std U y own z }),
      PgOwn z.1 l ∧ pg_step a.std U z.1 l = some w.1 := by
    rintro ⟨z, own, hz⟩
    refine Classical.byContradiction fun hn => hno ⟨own, z, hz, fun l ho => ?_⟩
    cases hs : pg_step a.std U z l with
    | none => rfl
    | some w => exact absurd ⟨l, ⟨w, _, pg_own_snoc hz ho hs⟩, ho, hs⟩ hn
  let st : Nat → { z // ∃ own, PgOwnRun a.std U y own z } := fun n => Nat.rec ⟨y, [], .nil y⟩ (fun _ z => (next z).choose_spec.choose) n
  exact pg_finite S hF inv ⟨fun n => (st n).1, fun n => (next (st n)).choose, rfl, fun n => (next (st n)).choose_spec.choose_spec⟩

theorem pg_own_stopped {std : StdKeys} {y y' : PgSys V E SC Ctx} {l : PgLabel V} (ho : PgOwn y l) (h : pg_step std U y l = some y')
    (hst : y.usb.sys.client.stopped = false) (hh : y.usb.sys.client.handles = true) : y'.usb.sys.client.stopped = false := by
  cases pg_step_cases h with
  | sys k pc u hq hu =>
    rcases u_step_client hu with ⟨l', rfl, hs⟩ | ⟨_, e⟩
    · show u.sys.client.stopped = false
      cases e : u.sys.client.stopped with
      | false => rfl
      | true =>
        exfalso
        rcases pg_own_cases ho with ⟨req, resp, body, e'⟩ | hown
        · cases e'
          rcases step_stops hs hst e with h | h | h | h
          · cases h
          · cases h
          · cases h
          · exact absurd (hh.symm.trans h) nofun
        · rcases step_stops hs hst e with rfl | rfl | rfl | h
          · exact (hown : False).elim
          · exact absurd (hown : false = true) nofun
          · exact (hown : (none : Option Bytes) ≠ none) rfl
          · exact absurd (hh.symm.trans h) nofun
    · show u.sys.client.stopped = false
      rw [e]; exact hst
  | _ => exact hst

end PRpc
