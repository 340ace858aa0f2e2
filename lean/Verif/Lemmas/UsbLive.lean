import Verif.Lemmas.UsbSim
import Verif.Lemmas.LiveRest
import Verif.Lemmas.Bounded
/-!
Lemmas on what client and server over a USB cable come to when left to themselves.
-/

namespace PRpc

open Spec

variable {V E SC Ctx : Type}

/-! ### Sends that succeed -/

/-- No send of the log failed. -/
def GoodLog (log : List (Event V E SC)) : Prop := ∀ e ∈ log, ∀ b f r, e = .sent b f r → r = none

theorem goodLog_snoc {log : List (Event V E SC)} {e : Event V E SC} (h : GoodLog log) (he : ∀ b f r, e = .sent b f r → r = none) :
    GoodLog (log ++ [e]) := by
  intro x hx
  rcases List.mem_append.mp hx with hx | hx
  · exact h x hx
  · rw [List.mem_singleton.mp hx]; exact he

section

variable {env : Env V E SC} (hs : ∀ log f, env.send log f = none)

include hs

theorem wire_send_good (o : Origin) (f : Frame V) {s : St V E SC Ctx} (h : GoodLog s.log) :
    GoodLog (wire_send env o f s).2.log := by
  unfold wire_send
  refine goodLog_snoc h ?_
  intro b f r e
  cases e
  exact hs _ _

theorem prog_good (p : Prog V E Ctx) : ∀ {s : St V E SC Ctx}, GoodLog s.log → GoodLog (p.run env s).log := by
  induction p with
  | done c => intro s h; exact h
  | send f k ih => intro s h; exact ih _ (wire_send_good hs _ _ h)

theorem publish_loop_good {std : StdKeys} {kk : VarKeyKind} (ds : List SchemaData) : ∀ {m : BitVec 16} {e : BitVec 32} {s : St V E SC Ctx}
    {q : BitVec 16 × BitVec 32 × St V E SC Ctx}, GoodLog s.log → publish_loop env std kk ds m e s = .ok q → GoodLog q.2.2.log := by
  induction ds with
  | nil => intro m e s q h hq; cases hq; exact h
  | cons d ds ih =>
    intro m e s q h hq
    simp only [publish_loop] at hq
    have key : ∀ x : Exec (BitVec 32), (x >>= fun err_ctr => inc_u16 env.overflow_checks m >>= fun msg_ctr =>
        publish_loop env std kk ds msg_ctr err_ctr (sender_publish env kk std.schema_topic (.Seq2 m) (.schema d) s).2) = .ok q →
        GoodLog q.2.2.log := by
      intro x hx
      cases x with
      | panic => cases hx
      | ok e' =>
        simp only [Exec.ok_bind] at hx
        cases e2 : inc_u16 env.overflow_checks m with
        | panic => rw [e2] at hx; cases hx
        | ok m' =>
          rw [e2] at hx
          exact ih (wire_send_good hs _ _ h) hx
    split at hq
    · exact key _ hq
    · exact key _ hq

theorem reply_arm_good {std : StdKeys} {kk : VarKeyKind} {h : EpHandler V Ctx} {g : Ctx → VarHeader → V → V × Ctx} {hdr : VarHeader} {v : V}
    {s : St V E SC Ctx} (hg : GoodLog s.log) : GoodLog (reply_arm env std kk h g hdr v s).2.log := by
  have h1 : GoodLog (s.note (.ran .endpoint h.name hdr v)).log := goodLog_snoc hg (by intro b f r e; cases e)
  unfold reply_arm
  simp only
  split
  · exact wire_send_good hs _ _ (wire_send_good hs _ _ (s := { s.note (.ran .endpoint h.name hdr v) with ctx := _ }) h1)
  · exact wire_send_good hs _ _ (s := { s.note (.ran .endpoint h.name hdr v) with ctx := _ }) h1

theorem handle_good {D : Dispatcher V E SC Ctx} {kk : VarKeyKind} {hdr : VarHeader} {body : Bytes} {s s' : St V E SC Ctx} {r : Option E}
    (hg : GoodLog s.log) (h : handle env D kk hdr body s = .ok (r, s')) : GoodLog s'.log := by
  have one : ∀ {x : Option E × St V E SC Ctx}, GoodLog x.2.log → Exec.ok x = .ok (r, s') → GoodLog s'.log := by
    intro x hx e; cases e; exact hx
  unfold handle at h
  split at h
  · exact one (wire_send_good hs _ _ hg) h
  · split at h
    · split at h
      · exact one (wire_send_good hs _ _ hg) h
      · exact one (wire_send_good hs _ _ hg) h
    · split at h
      · unfold send_all_schemas at h
        cases e1 : publish_loop env D.std kk (D.device_map.types.map .Type) 0#16 0#32 s with
        | panic => rw [e1] at h; cases h
        | ok q1 =>
          rw [e1] at h
          simp only [Exec.ok_bind] at h
          have g1 := publish_loop_good hs _ hg e1
          cases e2 : publish_loop env D.std kk (D.device_map.endpoints.map fun ep => .Endpoint ep.path ep.req ep.resp) q1.1 q1.2.1 q1.2.2 with
          | panic => rw [e2] at h; cases h
          | ok q2 =>
            rw [e2] at h
            simp only [Exec.ok_bind] at h
            have g2 := publish_loop_good hs _ g1 e2
            cases e3 : publish_loop env D.std kk (D.device_map.topics_out.map fun t => .Topic t.path t.key .ToClient) q2.1 q2.2.1 q2.2.2 with
            | panic => rw [e3] at h; cases h
            | ok q3 =>
              rw [e3] at h
              simp only [Exec.ok_bind] at h
              have g3 := publish_loop_good hs _ g2 e3
              cases e4 : publish_loop env D.std kk (D.device_map.topics_in.map fun t => .Topic t.path t.key .ToServer) q3.1 q3.2.1 q3.2.2 with
              | panic => rw [e4] at h; cases h
              | ok q4 =>
                rw [e4] at h
                simp only [Exec.ok_bind] at h
                exact one (wire_send_good hs _ _ (publish_loop_good hs _ g3 e4)) h
      · split at h
        · rename_i ep _
          split at h
          · exact one (wire_send_good hs _ _ hg) h
          · refine one ?_ h
            unfold ep_arm
            split
            · exact reply_arm_good hs hg
            · exact reply_arm_good hs hg
            · have hn : ∀ t ok, GoodLog (s.log ++ [Event.spawned t ok]) := fun t ok => goodLog_snoc hg (by intro b f r e; cases e)
              simp only
              split
              · exact hn _ _
              · exact wire_send_good hs _ _ (s := ⟨_, _⟩) (hn _ _)
        · split at h
          · split at h
            · exact one hg h
            · refine one (x := (none, _)) ?_ h
              unfold tp_arm
              split
              · exact goodLog_snoc hg (by intro b f r e; cases e)
              · exact prog_good hs _ (goodLog_snoc hg (by intro b f r e; cases e))
              · exact goodLog_snoc hg (by intro b f r e; cases e)
          · exact one (wire_send_good hs _ _ hg) h

end

theorem sent_ok_good {cut : List (Event V E SC) → Frame V → Nat} {src : Src} {ev : List (Event V E SC)} : ∀ {log : List (Event V E SC)},
    GoodLog ev → ∀ o ∈ sent_ok cut src log ev, o.cut = none := by
  induction ev with
  | nil => intro log _ o ho; cases ho
  | cons e ev ih =>
    intro log h o ho
    have h' : GoodLog ev := fun x hx => h x (List.mem_cons_of_mem _ hx)
    cases e with
    | sent b f r =>
      have := h _ (List.mem_cons_self ..) b f r rfl
      subst this
      simp only [sent_ok, List.mem_cons] at ho
      rcases ho with rfl | ho
      · rfl
      · exact ih h' o ho
    | ran => exact ih h' o ho
    | spawned => exact ih h' o ho

/-- No send has failed so far and none will. -/
structure WholeInv (u : UsbSys V E SC Ctx) : Prop where
  log : GoodLog u.sys.srv.log
  pending : ∀ o ∈ u.sys.pending, o.cut = none
  sending : ∀ w, u.sending = some w → w.o.cut = none ∧ (w.zlp = true → u.cur = [])
  idle : u.sending = none → u.pending_frame = true → u.cur = []
  outs : ∀ o ∈ u.sys.outs, o.cut = none

theorem wholeInv_new (c : Ctx) : WholeInv (UsbSys.new c : UsbSys V E SC Ctx) :=
  ⟨(by intro e h; cases h), (by intro o h; cases h), (by intro w h; cases h), (fun _ _ => rfl), (by intro o h; cases h)⟩

theorem served_whole {S : SysCfg V E SC Ctx} {s s' : Sys V E SC Ctx} {m : Bytes} (hs : ∀ log f, S.env.send log f = none) (hg : GoodLog s.srv.log)
    (h : serve_message S s m = some s') : GoodLog s'.srv.log ∧ ∀ o ∈ s'.pending, o.cut = none := by
  have fin : ∀ up srv, GoodLog srv.log → GoodLog (s.served S up srv).srv.log ∧ ∀ o ∈ (s.served S up srv).pending, o.cut = none := by
    intro up srv hsrv
    refine ⟨hsrv, ?_⟩
    exact sent_ok_good (fun e he => hsrv e (List.mem_of_mem_drop he))
  unfold serve_message at h
  rcases take_cases m with e | ⟨hdr, body, e⟩
  · simp only [server_run, e, Exec.ok_bind] at h
    cases h
    exact fin _ _ hg
  · simp only [server_run, e, Exec.ok_bind] at h
    cases hq : handle S.env S.disp S.kkind hdr body s.srv with
    | panic => rw [hq] at h; cases h
    | ok q =>
      obtain ⟨r, srv⟩ := q
      have := handle_good hs hg hq
      rw [hq] at h
      simp only [Exec.ok_bind] at h
      repeat' split at h
      all_goals first
        | (cases h; done)
        | (rename_i hx; repeat' split at hx
           all_goals first
             | (cases hx; done)
             | (cases hx; cases h; exact fin _ _ this))
        | (cases h; exact fin _ _ this)


theorem u_begin_cases {U : UsbCfg V E SC Ctx} {u u' : UsbSys V E SC Ctx} {s : Sys V E SC Ctx} {o : Out V} (h : u_begin U u s o = some u') :
    u.sending = none ∧ ∃ b, frame_bytes U.S.enc o.frame = .ok b ∧
      u' = { u with sys := { s with outs := s.outs ++ [o] }, sending := some ⟨o, b, u.pending_frame, 0, dev_packets b⟩ } := by
  unfold u_begin at h
  split at h
  · cases h
  · rename_i hs
    split at h
    · cases h
    · rename_i b hb
      cases h
      exact ⟨hs, b, hb, rfl⟩

theorem u_begin_total {U : UsbCfg V E SC Ctx} {u : UsbSys V E SC Ctx} (hs : u.sending = none) (s : Sys V E SC Ctx) (o : Out V) :
    u_begin U u s o ≠ none := by
  simp [u_begin, hs, frame_bytes_eq]

theorem host_get_air (u : UsbSys V E SC Ctx) (p : Bytes) : ∃ x c, x.length ≤ 1 ∧
    host_get u p = { u with sys := { u.sys with air := u.sys.air ++ x }, cur := c } := by
  unfold host_get
  split
  · exact ⟨[u.cur ++ p], [], Nat.le_refl _, rfl⟩
  · exact ⟨[], u.cur ++ p, Nat.zero_le _, by simp⟩

/-- A write by a send that does not fail. -/
theorem write_ok {u u' : UsbSys V E SC Ctx} {o : WriteOut} (w : WholeInv u) (h : u_write u o = some u') :
    ∃ s, u.sending = some s ∧
      ((s.zlp = true ∧ u' = { u with
          sys := { u.sys with air := u.sys.air ++ [[]] }
          cur := []
          pending_frame := true
          sending := some { s with zlp := false } }) ∨
        ∃ p rest x c, s.zlp = false ∧ s.todo = p :: rest ∧ o = .ok ∧ x.length ≤ 1 ∧
          u' = u_wrote { u with sys := { u.sys with air := u.sys.air ++ x }, cur := c } { s with out := s.out + p.length, todo := rest }) := by
  unfold u_write at h
  split at h
  · cases h
  · rename_i s hw
    obtain ⟨w1, w2⟩ := w.sending s hw
    have hf : ∀ n, (⟨s.o, s.b, s.zlp, n, s.todo⟩ : Sending V).fails_at = none := by intro n; simp [Sending.fails_at, w1]
    refine ⟨s, hw, ?_⟩
    simp only at h
    split at h
    · rename_i hz
      left
      refine ⟨hz, ?_⟩
      cases o with
      | ok =>
        obtain ⟨_, h⟩ := ite_some_some h
        rw [← Option.some.inj h]
        simp [host_get, w2 hz]
      | err gone =>
        obtain ⟨hc, _⟩ := ite_some_some h
        rw [hf] at hc
        cases hc.1
      | cut gone =>
        obtain ⟨hc, _⟩ := ite_some_some h
        rw [hf] at hc
        cases hc.1
    · rename_i hz
      right
      split at h
      · cases h
      · rename_i p rest ht
        cases o with
        | ok =>
          obtain ⟨_, h⟩ := ite_some_some h
          obtain ⟨x, c, hx, e⟩ := host_get_air u p
          refine ⟨p, rest, x, c, Bool.eq_false_iff.mpr hz, ht, rfl, hx, ?_⟩
          rw [e] at h
          exact (Option.some.inj h).symm
        | err gone =>
          obtain ⟨hc, _⟩ := ite_some_some h
          rw [hf] at hc
          cases hc.1
        | cut gone =>
          obtain ⟨hc, _⟩ := ite_some_some h
          rw [hf] at hc
          cases hc.1

theorem serve_message_outs {S : SysCfg V E SC Ctx} {s s' : Sys V E SC Ctx} {m : Bytes} (h : serve_message S s m = some s') :
    s'.outs = s.outs := by
  unfold serve_message at h
  repeat' split at h
  all_goals first
    | (cases h; done)
    | (cases h; rfl)

theorem whole_step {U : UsbCfg V E SC Ctx} {u u' : UsbSys V E SC Ctx} {l : ULabel V} (hs : ∀ log f, U.S.env.send log f = none)
    (w : WholeInv u) (h : u_step U u l = some u') : WholeInv u' := by
  have beg : ∀ {s : Sys V E SC Ctx} {o : Out V}, GoodLog s.srv.log → (∀ o ∈ s.pending, o.cut = none) → o.cut = none →
      s.outs = u.sys.outs → u_begin U u s o = some u' → WholeInv u' := by
    intro s o h1 h2 h3 h4 h
    obtain ⟨e, b, _, rfl⟩ := u_begin_cases h
    refine ⟨h1, h2, (by intro x hx; cases hx; exact ⟨h3, w.idle e⟩), (by intro hx; cases hx), fun x hx => ?_⟩
    rcases List.mem_append.mp hx with hx | hx
    · exact w.outs x (h4 ▸ hx)
    · cases List.mem_singleton.mp hx; exact h3
  have snd : ∀ {src : Src} {o : Origin} {f : Frame V}, u_send U u src (wire_send U.S.env o f u.sys.srv) f = some u' → WholeInv u' := by
    intro src o f h
    unfold u_send at h
    have e1 : (wire_send U.S.env o f u.sys.srv).1 = none := hs _ _
    rw [e1] at h
    exact beg (s := { u.sys with srv := (wire_send U.S.env o f u.sys.srv).2 }) (wire_send_good hs _ _ w.log) w.pending rfl rfl h
  cases l with
  | client l =>
    obtain ⟨s, h1, h2⟩ := u_client_cases h
    obtain ⟨c, _, h3⟩ := client_step_cases h1
    have e : s.srv = u.sys.srv ∧ s.pending = u.sys.pending ∧ s.outs = u.sys.outs := by
      rcases h3 with ⟨_, _, _, _, rfl⟩ | ⟨_, rfl⟩ <;> exact ⟨rfl, rfl, rfl⟩
    rcases h2 with ⟨_, rfl⟩ | ⟨_, _, rfl⟩
    · exact ⟨by show GoodLog s.srv.log; rw [e.1]; exact w.log, by show ∀ o ∈ s.pending, _; rw [e.2.1]; exact w.pending, w.sending, w.idle,
        by show ∀ o ∈ s.outs, _; rw [e.2.2]; exact w.outs⟩
    · exact ⟨by show GoodLog s.srv.log; rw [e.1]; exact w.log, by show ∀ o ∈ s.pending, _; rw [e.2.1]; exact w.pending, w.sending, w.idle,
        by show ∀ o ∈ s.outs, _; rw [e.2.2]; exact w.outs⟩
  | host_packet =>
    simp only [u_step, u_host_packet] at h
    repeat' split at h
    all_goals first
      | (cases h; done)
      | (cases h; exact ⟨w.log, w.pending, w.sending, w.idle, w.outs⟩)
  | dev_read =>
    simp only [u_step, u_read] at h
    split at h
    · split at h
      · cases h
      · split at h
        · cases h; exact ⟨w.log, w.pending, w.sending, w.idle, w.outs⟩
        · split at h
          · rename_i s hm
            obtain ⟨g1, g2⟩ := served_whole hs w.log hm
            cases h
            exact ⟨g1, g2, w.sending, w.idle, by show ∀ o ∈ s.outs, _; rw [serve_message_outs hm]; exact w.outs⟩
          · cases h
        · cases h; exact ⟨w.log, w.pending, w.sending, w.idle, w.outs⟩
    · cases h
  | flush =>
    simp only [u_step] at h
    split at h
    · cases h
    · rename_i o rest hp
      have := w.pending
      rw [hp] at this
      exact beg (s := { u.sys with pending := rest }) w.log (fun x hx => this x (List.mem_cons_of_mem _ hx)) (this o (List.mem_cons_self ..)) rfl h
  | task_reply i v =>
    simp only [u_step, u_task_reply] at h
    repeat' split at h
    all_goals first
      | (cases h; done)
      | exact snd h
  | app_publish key seq v => exact snd h
  | dev_write o =>
    obtain ⟨s, h1, ⟨_, rfl⟩ | ⟨p, rest, x, c, hz, h2, h3, _, rfl⟩⟩ := write_ok w h
    · exact ⟨w.log, w.pending, (by intro x hx; cases hx; exact ⟨(w.sending s h1).1, fun _ => rfl⟩), (fun _ _ => rfl), w.outs⟩
    unfold u_wrote
    split
    · exact ⟨w.log, w.pending, (by intro x hx; cases hx), (by intro _ hx; cases hx), w.outs⟩
    · refine ⟨w.log, w.pending, (fun x hx => ?_), (by intro hx; cases hx), w.outs⟩
      cases hx
      exact ⟨(w.sending s h1).1, fun h => by rw [hz] at h; cases h⟩
  | refuse =>
    simp only [u_step, u_refuse] at h
    split at h
    · cases h
    · rename_i s hw
      obtain ⟨⟨_, _, hf⟩, _⟩ := ite_some_some h
      simp [Sending.fails_at, (w.sending s hw).1] at hf

/-! ### The invariants along a run -/

structure UsbLive (a : App V E SC Ctx) (U : UsbCfg V E SC Ctx) (u : UsbSys V E SC Ctx) : Prop where
  usb : UsbInv U.S u
  whole : WholeInv u
  rx : u.rx ≠ .draining
  sys : SysInv a U.S u.abs
  live : LiveInv a U.S u.abs

/-- The same for clients that make raw calls too. -/
structure UsbLiveR (a : App V E SC Ctx) (U : UsbCfg V E SC Ctx) (u : UsbSys V E SC Ctx) : Prop where
  usb : UsbInv U.S u
  whole : WholeInv u
  rx : u.rx ≠ .draining
  sys : SysInvR a U.S u.abs
  live : LiveInv a U.S u.abs

theorem UsbLive.raw {a : App V E SC Ctx} {U : UsbCfg V E SC Ctx} {u : UsbSys V E SC Ctx} (h : UsbLive a U u) : UsbLiveR a U u :=
  ⟨h.usb, h.whole, h.rx, h.sys, h.live⟩

instance {a : App V E SC Ctx} {U : UsbCfg V E SC Ctx} {u : UsbSys V E SC Ctx} : Coe (UsbLive a U u) (UsbLiveR a U u) := ⟨UsbLive.raw⟩

theorem usbLive_new (a : App V E SC Ctx) (U : UsbCfg V E SC Ctx) (c : Ctx) : UsbLive a U (UsbSys.new c : UsbSys V E SC Ctx) :=
  ⟨usbInv_new _ c, wholeInv_new c, (by intro h; cases h), sysInv_new .., liveInv_new a U.S c⟩

theorem rx_same {U : UsbCfg V E SC Ctx} {u u' : UsbSys V E SC Ctx} {l : ULabel V} (hl : l ≠ .dev_read) (h : u_step U u l = some u') :
    u'.rx = u.rx := by
  have beg : ∀ {s : Sys V E SC Ctx} {o : Out V}, u_begin U u s o = some u' → u'.rx = u.rx := by
    intro s o h
    obtain ⟨_, _, _, rfl⟩ := u_begin_cases h
    rfl
  have got : ∀ p, (host_get u p).rx = u.rx := by
    intro p
    obtain ⟨_, _, _, e⟩ := host_get_air u p
    rw [e]
  cases l with
  | dev_read => exact absurd rfl hl
  | client l =>
    obtain ⟨s, _, h2⟩ := u_client_cases h
    rcases h2 with ⟨_, rfl⟩ | ⟨_, _, rfl⟩ <;> rfl
  | host_packet =>
    simp only [u_step, u_host_packet] at h
    repeat' split at h
    all_goals first
      | (cases h; done)
      | (cases h; rfl)
  | flush =>
    simp only [u_step] at h
    split at h
    · cases h
    · exact beg h
  | task_reply i v =>
    simp only [u_step, u_task_reply, u_send] at h
    repeat' split at h
    all_goals first
      | (cases h; done)
      | exact beg h
  | app_publish key seq v =>
    simp only [u_step, u_publish, u_send] at h
    split at h <;> exact beg h
  | dev_write o =>
    simp only [u_step, u_write] at h
    split at h
    · cases h
    · rename_i w hw
      have wr : ∀ (v : UsbSys V E SC Ctx) (w : Sending V), (u_wrote v w).rx = v.rx := by
        intro v w; unfold u_wrote; split <;> rfl
      have ends : ∀ (gone : Bool) (p : Bytes), (if gone = true then host_get u p else u).rx = u.rx := by
        intro gone p; split
        · exact got p
        · rfl
      split at h
      · cases o with
        | ok => obtain ⟨_, h⟩ := ite_some_some h; rw [← Option.some.inj h]; exact got _
        | err gone => obtain ⟨_, h⟩ := ite_some_some h; rw [← Option.some.inj h]; exact ends _ _
        | cut gone => obtain ⟨_, h⟩ := ite_some_some h; rw [← Option.some.inj h]; exact ends _ _
      · split at h
        · cases h
        · cases o with
          | ok => obtain ⟨_, h⟩ := ite_some_some h; rw [← Option.some.inj h, wr]; exact got _
          | err gone => obtain ⟨_, h⟩ := ite_some_some h; rw [← Option.some.inj h]; exact ends _ _
          | cut gone => obtain ⟨_, h⟩ := ite_some_some h; rw [← Option.some.inj h]; exact ends _ _
  | refuse =>
    simp only [u_step, u_refuse] at h
    split at h
    · cases h
    · obtain ⟨_, h⟩ := ite_some_some h
      rw [← Option.some.inj h]

/-- A step, if messages fit: it stands for a step of the composed system that is not a rejection, or for none. -/
theorem sim_fit {U : UsbCfg V E SC Ctx} {u u' : UsbSys V E SC Ctx} {l : ULabel V} (hU : UsbSound U) (inv : UsbInv U.S u)
    (hrx : u.rx ≠ .draining) (hsm : Small U.S u.sys) (hfit : RequestsFit U u.sys) (h : u_step U u l = some u') :
    UsbInv U.S u' ∧ u'.rx ≠ .draining ∧ (u'.abs = u.abs ∨ ∃ l', Stands l l' ∧ l' ≠ .reject ∧ sys_step U.S u.abs l' = some u'.abs) := by
  by_cases hl : l = .dev_read
  · subst hl
    obtain ⟨i, _, _, _, _, _, _, h | h | h⟩ := sim_read hU.buffer hU.some_buffer inv h
    · refine ⟨i, fun e => ?_, .inl h.1⟩
      rcases h.2.2 e with h | h
      · exact hrx h
      · exact h hfit
    · exact ⟨i, (by rw [h.1]; intro e; cases e), .inr ⟨_, .serve, (by intro e; cases e), h.2⟩⟩
    · rcases h.2.2 with h | h
      · exact absurd h hrx
      · exact absurd hfit h
  · obtain ⟨i, h1⟩ := sim_step hU.buffer hU.some_buffer inv hsm h
    refine ⟨i, by rw [rx_same hl h]; exact hrx, ?_⟩
    rcases h1 with h1 | ⟨l', h1, h2⟩
    · exact .inl h1
    · refine .inr ⟨l', h1, ?_, h2⟩
      rintro rfl
      cases h1
      exact hl rfl

theorem stands_listens {a : App V E SC Ctx} {l : ULabel V} {l' : SLabel V} (hs : Stands l l') (hr : l' ≠ .reject) (h : UsbListens a l) :
    Listens a l' := by
  cases hs with
  | client l => exact h
  | reject => exact absurd rfl hr
  | _ => trivial

theorem usb_step_live {a : App V E SC Ctx} {U : UsbCfg V E SC Ctx} {u u' : UsbSys V E SC Ctx} {l : ULabel V}
    (hD : Dispatches a U.S.disp) (hdecl : Declared a U.S.kkind) (hF : Fits a U.S) (hU : UsbSound U)
    (hl : UsbUsed a l ∧ UsbListens a l) (hsm : Small U.S u.sys) (hfit : RequestsFit U u.sys)
    (hn : u'.sys.client.calls.length < 2 ^ 32) (inv : UsbLive a U u) (h : u_step U u l = some u') : UsbLive a U u' := by
  obtain ⟨i, hrx, hs⟩ := sim_fit hU inv.usb inv.rx hsm hfit h
  have w := whole_step hF.sends inv.whole h
  rcases hs with e | ⟨l', h1, h2, h3⟩
  · exact ⟨i, w, hrx, e ▸ inv.sys, e ▸ inv.live⟩
  · exact ⟨i, w, hrx, sys_step_inv h3 (stands_used h1 hl.1) inv.sys,
      sys_step_live hD hdecl hF h3 (stands_listens h1 h2 hl.2) inv.sys inv.live hn⟩


/-! ### Left to itself -/

/-- Packets on their way, and empty transfers the client has not looked at. -/
def UsbSys.traffic (u : UsbSys V E SC Ctx) : Nat :=
  2 * u.bus_out.length + u.ep_out.length + 3 * (match u.sending with | some w => w.todo.length + w.zlp.toNat | none => 0) +
    u.sys.air.countP (·.isEmpty)

theorem usb_own_step {U : UsbCfg V E SC Ctx} {u u' : UsbSys V E SC Ctx} {l : ULabel V} (hU : UsbSound U) (inv : UsbInv U.S u)
    (w : WholeInv u) (hrx : u.rx ≠ .draining) (hsm : Small U.S u.sys) (hfit : RequestsFit U u.sys) (ho : UsbOwn u l)
    (h : u_step U u l = some u') :
    (u'.abs = u.abs ∧ u'.traffic < u.traffic) ∨ ∃ l', SysOwn u.abs l' ∧ sys_step U.S u.abs l' = some u'.abs := by
  have begins : ∀ {s : Sys V E SC Ctx} {o : Out V}, u_begin U u s o = some u' → s.outs = u.sys.outs → u'.abs ≠ u.abs := by
    intro s o h1 e h2
    obtain ⟨_, b, _, rfl⟩ := u_begin_cases h1
    have := congrArg (fun s => s.outs.length) h2
    simp [UsbSys.abs, e] at this
  cases l with
  | app_publish key seq v => cases ho
  | refuse => cases ho
  | client l =>
    obtain ⟨s, hs, hu⟩ := u_client_cases h
    obtain ⟨_, ⟨rfl, h1, h2, _⟩ | h1⟩ := sim_client inv h
    · left
      refine ⟨h1, ?_⟩
      rcases hu with ⟨e, _⟩ | ⟨_, _, rfl⟩
      · cases e
      · unfold UsbSys.traffic
        rw [h2]
        simp
    · exact .inr ⟨_, ho, h1⟩
  | host_packet =>
    obtain ⟨_, h1, h2, h3, _, _, p, ps, h4, h5, h6⟩ := sim_packet inv h
    left
    refine ⟨h1, ?_⟩
    unfold UsbSys.traffic
    rw [h2, h3, h4, h5, h6]
    simp only [List.length_cons, List.length_append, List.length_nil]
    omega
  | dev_read =>
    obtain ⟨_, h1, ⟨p, h2⟩, h3, _, _, _, h | h | h⟩ := sim_read hU.buffer hU.some_buffer inv h
    · left
      refine ⟨h.1, ?_⟩
      unfold UsbSys.traffic
      rw [h1, h2, h3, h.2.1]
      simp only [List.length_cons]
      omega
    · exact .inr ⟨.serve, trivial, h.2⟩
    · rcases h.2.2 with h | h
      · exact absurd h hrx
      · exact absurd hfit h
  | dev_write o =>
    obtain ⟨_, habs, _⟩ := sim_write inv hsm h
    left
    refine ⟨habs, ?_⟩
    obtain ⟨s, h1, ⟨hz, h5⟩ | ⟨p, rest, x, c, hz, h2, _, h4, h5⟩⟩ := write_ok w h
    · rw [h5]
      unfold UsbSys.traffic
      rw [h1]
      simp [hz]
      omega
    rw [h5]
    have hx : x.countP (·.isEmpty) ≤ 1 := Nat.le_trans List.countP_le_length h4
    unfold u_wrote UsbSys.traffic
    rw [h1]
    simp only [h2, hz, List.length_cons]
    split <;> simp_all only [List.countP_append, List.length_cons, List.length_nil, Bool.toNat_false] <;> omega
  | flush =>
    obtain ⟨_, e | ⟨l', h1, h2⟩⟩ := sim_step hU.buffer hU.some_buffer inv hsm h
    · exfalso
      simp only [u_step] at h
      split at h
      · cases h
      · exact begins h rfl e
    · cases h1
      exact .inr ⟨.flush, trivial, h2⟩
  | task_reply i v =>
    obtain ⟨_, e | ⟨l', h1, h2⟩⟩ := sim_step hU.buffer hU.some_buffer inv hsm h
    · exfalso
      simp only [u_step, u_task_reply, u_send] at h
      repeat' split at h
      all_goals first
        | (cases h; done)
        | exact begins h rfl e
    · cases h1
      exact .inr ⟨.task_reply i v, ho, h2⟩

theorem serve_message_total {a : App V E SC Ctx} {S : SysCfg V E SC Ctx} (s : Sys V E SC Ctx) (b : Bytes) (hfit : Fits a S) :
    serve_message S s b ≠ none := by
  unfold serve_message
  rcases take_cases b with e | ⟨hdr, body, e⟩
  · simp [server_run, e]
  · simp only [server_run, e, Exec.ok_bind]
    obtain ⟨⟨r, srv⟩, hq⟩ := handle_total (env := S.env) (D := S.disp) (kk := S.kkind) (hdr := hdr) (body := body) (s := s.srv) hfit.counters
    obtain ⟨rfl, _⟩ := handle_answers hfit.sends hq
    rw [hq]
    simp

/-- A step of the client is not held up, but for the end of a send. -/
theorem u_client_total {U : UsbCfg V E SC Ctx} {u : UsbSys V E SC Ctx} {l : Label} (h : client_step U.S u.sys l ≠ none)
    (hl : l ≠ .out_done true ∨ u.bus_out = []) : u_client U u l ≠ none := by
  unfold u_client
  split
  · rename_i e; exact absurd e h
  · split
    · simp
    · rcases hl with hl | hl
      · exact absurd rfl hl
      · simp [hl]
    · simp

theorem usb_stuck {a : App V E SC Ctx} {U : UsbCfg V E SC Ctx} {u : UsbSys V E SC Ctx} (hU : UsbSound U) (hF : Fits a U.S)
    (inv : UsbLiveR a U u) (ho : Open u.sys) (h : UsbStuck U u) :
    SysStuck U.S u.abs ∧ (u.bus_out = [] ∧ u.ep_out = [] ∧ u.rx = .filling []) ∧ u.sending = none ∧ u.cur = [] ∧ u.sys.air = [] := by
  have hair : u.sys.air = [] := by
    cases e : u.sys.air with
    | nil => rfl
    | cons b air =>
      exfalso
      rcases in_moves inv.sys.reach ho.1 b with ⟨l, h1, h2, h3, h4⟩ | h4
      · have own : UsbOwn u (.client l : ULabel V) := by
          show SysOwn u.sys (.client l : SLabel V)
          cases l <;> first | exact h1 | exact absurd rfl (h2 _) | exact absurd rfl (h3 _)
        refine u_client_total (U := U) (u := u) (l := l) ?_ (.inl (h2 _)) (h _ own)
        cases hs : step U.S.cfg u.sys.client l with
        | none => exact absurd hs h4
        | some c => rw [client_step_other (fun b => h3 _) hs]; simp
      · have := h (.client (.in_recv (some b))) (by simp [UsbOwn, SysOwn])
        refine u_client_total (U := U) (u := u) (l := .in_recv (some b)) ?_ (.inl (by simp)) this
        simp only [client_step, e, if_true]
        split
        · simp
        · rename_i e2; exact absurd e2 h4
  have hsend : u.sending = none := by
    cases e : u.sending with
    | none => rfl
    | some w =>
      exfalso
      obtain ⟨w1, w2⟩ := inv.whole.sending w e
      have i := inv.usb.send w e
      have := h (.dev_write .ok) rfl
      cases ht : w.todo with
      | nil => exact host_packets_ne _ (i.todo ▸ ht)
      | cons p rest =>
        cases hz : w.zlp <;> simp [u_step, u_write, e, hz, ht, hair, Sending.fails_at, w1, IN_FLIGHT_REQS] at this
  have hpend : u.sys.pending = [] := by
    have := h .flush trivial
    simp only [u_step] at this
    split at this
    · rename_i e; exact e
    · exact absurd this (u_begin_total hsend _ _)
  have hep : u.ep_out = [] := by
    cases e : u.ep_out with
    | nil => rfl
    | cons p ps =>
      exfalso
      have := h .dev_read trivial
      have hup : u.sys.up = true := inv.live.up
      simp only [u_step, u_read] at this
      rw [if_pos ⟨hup, by rw [hpend]; rfl, by rw [hsend]; rfl⟩, e] at this
      simp only at this
      split at this
      · cases this
      · split at this
        · cases this
        · rename_i e2; exact absurd e2 (serve_message_total _ _ hF)
      · cases this
  have hbus : u.bus_out = [] := by
    cases e : u.bus_out with
    | nil => rfl
    | cons p ps =>
      exfalso
      have := h .host_packet trivial
      simp [u_step, u_host_packet, e, hep, hU.endpoint] at this
  obtain ⟨fp, f1, f2, f3⟩ := inv.usb.stream
  rw [hep, hbus, List.append_nil, List.append_nil] at f3
  have hdrop := stream_full f1 f3
  have htaken : u.sys.client.tx.length ≤ u.sys.taken := List.drop_eq_nil_iff.mp hdrop
  rw [hdrop] at f3
  have hrx : u.rx = .filling [] := by
    cases e : u.rx with
    | draining => exact absurd e inv.rx
    | filling got => rw [f2 got e, f3]; rfl
  have hcur : u.cur = [] := by
    cases hp : u.pending_frame with
    | false => exact inv.usb.idle hsend hp
    | true => exact inv.whole.idle hsend hp
  have habs : u.abs = { u.sys with air := [] } := by
    unfold UsbSys.abs UsbSys.rest
    rw [hair, hsend, hcur]
    rfl
  refine ⟨?_, ⟨hbus, hep, hrx⟩, hsend, hcur, hair⟩
  rw [habs]
  intro l hl _
  cases l with
  | reject => cases hl
  | app_publish key seq v => cases hl
  | client l =>
    have := h (.client l) hl
    refine Classical.byContradiction fun hn => u_client_total (U := U) ?_ (.inr hbus) this
    cases hs : client_step U.S { u.sys with air := [] } l with
    | none => exact absurd hs hn
    | some s =>
      obtain ⟨c, hc, ⟨_, _, _, e, _⟩ | ⟨hne, _⟩⟩ := client_step_cases hs
      · cases e
      · rw [client_step_other hne (s := u.sys) hc]; simp
  | serve =>
    simp only [sys_step, serve]
    split
    · rw [List.getElem?_eq_none htaken]
    · rfl
  | flush => simp only [sys_step, hpend]
  | task_reply i v =>
    have := h (.task_reply i v) hl
    simp only [u_step, u_task_reply] at this
    simp only [sys_step, task_reply]
    split
    · rfl
    · rename_i ht
      rw [ht] at this
      simp only at this
      split
      · rfl
      · rename_i hr
        rw [hr] at this
        simp only at this
        split
        · rfl
        · rename_i hg
          rw [hg] at this
          simp only [u_send] at this
          split at this
          · exact absurd this (u_begin_total hsend _ _)
          · exact absurd this (u_begin_total hsend _ _)

theorem usb_stuck_rest {a : App V E SC Ctx} {U : UsbCfg V E SC Ctx} {u : UsbSys V E SC Ctx} (hU : UsbSound U) (hF : Fits a U.S)
    (hd : 0 < U.S.cfg.outgoing_depth) (inv : UsbLiveR a U u) (ho : Open u.sys) (h : UsbStuck U u) : UsbAtRest u := by
  obtain ⟨h1, h2, h3, h4, h5⟩ := usb_stuck hU hF inv ho h
  have := stuck_atRest hd hF inv.sys inv.live ho h1
  exact ⟨⟨this.client, this.taken, this.pending, this.tasks, h5⟩, h2, h3, h4⟩


theorem usb_run_live {a : App V E SC Ctx} {U : UsbCfg V E SC Ctx} (hD : Dispatches a U.S.disp) (hdecl : Declared a U.S.kkind)
    (hF : Fits a U.S) (hU : UsbSound U) {ls : List (ULabel V)} : ∀ {u u' : UsbSys V E SC Ctx}, UsbLive a U u → Small U.S u'.sys →
    RequestsFit U u'.sys → u'.sys.client.calls.length < 2 ^ 32 → (∀ l ∈ ls, UsbUsed a l ∧ UsbListens a l) → u_run U ls u = some u' →
    UsbLive a U u' := by
  induction ls with
  | nil => intro u u' inv _ _ _ _ h; cases h; exact inv
  | cons l ls ih =>
    intro u u' inv hsm hfit hn hl h
    have h0 := h
    simp only [u_run] at h
    split at h
    · rename_i v hv
      have hsm0 : Small U.S u.sys := small_before hsm (u_run_grows h0).1
      have hfit0 : RequestsFit U u.sys := fit_before hfit (u_run_grows h0).2
      obtain ⟨vi, _⟩ := sim_fit hU inv.usb inv.rx hsm0 hfit0 hv
      obtain ⟨_, ls', hr, _⟩ := sim_run hU.buffer hU.some_buffer vi hsm h
      have hvn : v.sys.client.calls.length < 2 ^ 32 := Nat.lt_of_le_of_lt (sys_run_grow (s := v.abs) (s' := u'.abs) hr) hn
      exact ih (usb_step_live hD hdecl hF hU (hl l (List.mem_cons_self ..)) hsm0 hfit0 hvn inv hv) hsm hfit hn
        (fun x hx => hl x (List.mem_cons_of_mem _ hx)) h
    · cases h


theorem usb_own_run {U : UsbCfg V E SC Ctx} {ls : List (ULabel V)} {u v : UsbSys V E SC Ctx} (h : UsbOwnRun U u ls v) :
    u_run U ls u = some v := by
  induction h with
  | nil u => rfl
  | cons _ h _ ih => simp only [u_run, h]; exact ih

theorem usb_own_used {a : App V E SC Ctx} {u : UsbSys V E SC Ctx} {l : ULabel V} (ho : UsbOwn u l) : UsbUsed a l ∧ UsbListens a l := by
  cases l with
  | client l => exact own_used (a := a) (s := u.sys) ho
  | app_publish => cases ho
  | _ => exact ⟨trivial, trivial⟩

theorem usb_own_one {a : App V E SC Ctx} {U : UsbCfg V E SC Ctx} (hD : Dispatches a U.S.disp) (hdecl : Declared a U.S.kkind)
    (hF : Fits a U.S) (hU : UsbSound U) {u v : UsbSys V E SC Ctx} {l : ULabel V} (inv : UsbLive a U u) (hsm : Small U.S u.sys)
    (hfit : RequestsFit U u.sys) (hn : u.sys.client.calls.length < 2 ^ 32) (ho : UsbOwn u l) (h : u_step U u l = some v) :
    UsbLive a U v ∧ (Open u.sys → Open v.sys) ∧ v.sys.client.calls.length = u.sys.client.calls.length ∧
      ((v.abs = u.abs ∧ v.traffic < u.traffic) ∨ lexLt v.abs.work u.abs.work) := by
  have main : (Open u.sys → Open v.sys) ∧ v.sys.client.calls.length = u.sys.client.calls.length ∧
      ((v.abs = u.abs ∧ v.traffic < u.traffic) ∨ lexLt v.abs.work u.abs.work) := by
    rcases usb_own_step hU inv.usb inv.whole inv.rx hsm hfit ho h with ⟨e, ht⟩ | ⟨l', h1, h2⟩
    · have ec : v.abs.client = u.abs.client := congrArg Sys.client e
      have ec : v.sys.client = u.sys.client := ec
      exact ⟨fun o => by unfold Open; rw [ec]; exact o, by rw [ec], .inl ⟨e, ht⟩⟩
    · exact ⟨fun o => sys_step_open (s := u.abs) (s' := v.abs) h1 h2 o, own_calls_len (s := u.abs) (s' := v.abs) h1 h2, .inr (sys_step_work hF.sends inv.live.le h1 h2)⟩
  exact ⟨usb_step_live hD hdecl hF hU (usb_own_used ho) hsm hfit (by omega) inv h, main⟩

theorem usb_own_inv {a : App V E SC Ctx} {U : UsbCfg V E SC Ctx} (hD : Dispatches a U.S.disp) (hdecl : Declared a U.S.kkind)
    (hF : Fits a U.S) (hU : UsbSound U) {ls : List (ULabel V)} {u v : UsbSys V E SC Ctx} (h : UsbOwnRun U u ls v) (inv : UsbLive a U u)
    (hsm : Small U.S v.sys) (hfit : RequestsFit U v.sys) (hn : u.sys.client.calls.length < 2 ^ 32) :
    UsbLive a U v ∧ (Open u.sys → Open v.sys) ∧ v.sys.client.calls.length = u.sys.client.calls.length := by
  induction h with
  | nil u => exact ⟨inv, id, rfl⟩
  | cons ho h hr ih =>
    have hg := u_run_grows (usb_own_run (.cons ho h hr))
    obtain ⟨i1, i2, i3, _⟩ := usb_own_one hD hdecl hF hU inv (small_before hsm hg.1) (fit_before hfit hg.2) hn ho h
    obtain ⟨j1, j2, j3⟩ := ih i1 hsm hfit (by omega)
    exact ⟨j1, fun o => j2 (i2 o), j3.trans i3⟩

/-- It comes to an end. -/
theorem usb_own_finite {a : App V E SC Ctx} {U : UsbCfg V E SC Ctx} {u : UsbSys V E SC Ctx} (hD : Dispatches a U.S.disp)
    (hdecl : Declared a U.S.kkind) (hF : Fits a U.S) (hU : UsbSound U) (inv : UsbLive a U u) (hn : u.sys.client.calls.length < 2 ^ 32) :
    ¬ ∃ (f : Nat → UsbSys V E SC Ctx) (g : Nat → ULabel V), f 0 = u ∧
      ∀ n, (Small U.S (f n).sys ∧ RequestsFit U (f n).sys) ∧ UsbOwn (f n) (g n) ∧ u_step U (f n) (g n) = some (f (n + 1)) := by
  rintro ⟨f, g, h0, hf⟩
  have good : ∀ n, UsbLive a U (f n) ∧ (f n).sys.client.calls.length < 2 ^ 32 := by
    intro n
    induction n with
    | zero => rw [h0]; exact ⟨inv, hn⟩
    | succ n ih =>
      obtain ⟨⟨c1, c2⟩, c3, c4⟩ := hf n
      obtain ⟨i1, _, i3, _⟩ := usb_own_one hD hdecl hF hU ih.1 c1 c2 ih.2 c3 c4
      exact ⟨i1, i3 ▸ ih.2⟩
  have dec : ∀ n, ((f (n + 1)).abs = (f n).abs ∧ (f (n + 1)).traffic < (f n).traffic) ∨ lexLt (f (n + 1)).abs.work (f n).abs.work := by
    intro n
    obtain ⟨⟨c1, c2⟩, c3, c4⟩ := hf n
    exact (usb_own_one hD hdecl hF hU (good n).1 c1 c2 (good n).2 c3 c4).2.2.2
  have none : ∀ x, ∀ n, (f n).abs.work = x → False := by
    intro x
    induction x using lexLt_wf.induction with
    | _ x ih =>
      have inner : ∀ m, ∀ n, (f n).traffic = m → (f n).abs.work = x → False := by
        intro m
        induction m using Nat.strongRecOn with
        | _ m ihm =>
          intro n e1 e2
          rcases dec n with ⟨d1, d2⟩ | d
          · exact ihm _ (e1 ▸ d2) (n + 1) rfl (by rw [d1]; exact e2)
          · exact ih _ (e2 ▸ d) (n + 1) rfl
      intro n e
      exact inner _ n rfl e
  exact none _ 0 rfl


/-- It can go on until nothing is left to do, as long as messages fit. -/
theorem usb_to_stuck {a : App V E SC Ctx} {U : UsbCfg V E SC Ctx} {u : UsbSys V E SC Ctx} (hD : Dispatches a U.S.disp)
    (hdecl : Declared a U.S.kkind) (hF : Fits a U.S) (hU : UsbSound U) (inv : UsbLive a U u) (hn : u.sys.client.calls.length < 2 ^ 32) :
    ∃ more v, UsbOwnRun U u more v ∧ (¬ (Small U.S v.sys ∧ RequestsFit U v.sys) ∨ UsbStuck U v) := by
  have main : ∀ x, ∀ m, ∀ u : UsbSys V E SC Ctx, u.traffic = m → u.abs.work = x → UsbLive a U u → u.sys.client.calls.length < 2 ^ 32 →
      ∃ more v, UsbOwnRun U u more v ∧ (¬ (Small U.S v.sys ∧ RequestsFit U v.sys) ∨ UsbStuck U v) := by
    intro x
    induction x using lexLt_wf.induction with
    | _ x ih =>
      intro m
      induction m using Nat.strongRecOn with
      | _ m ihm =>
        intro u e1 e2 inv hn
        by_cases hst : UsbStuck U u
        · exact ⟨[], u, .nil u, .inr hst⟩
        · by_cases hok : Small U.S u.sys ∧ RequestsFit U u.sys
          · have : ∃ l, UsbOwn u l ∧ u_step U u l ≠ none := by
              refine Classical.byContradiction fun hn => hst fun l ho => ?_
              refine Classical.byContradiction fun h => hn ⟨l, ho, h⟩
            obtain ⟨l, hol, hne⟩ := this
            cases hs : u_step U u l with
            | none => exact absurd hs hne
            | some v =>
              obtain ⟨i1, _, i3, d⟩ := usb_own_one hD hdecl hF hU inv hok.1 hok.2 hn hol hs
              rcases d with ⟨d1, d2⟩ | d
              · obtain ⟨more, w, hr, h⟩ := ihm _ (e1 ▸ d2) v rfl (by rw [d1]; exact e2) i1 (by omega)
                exact ⟨l :: more, w, .cons hol hs hr, h⟩
              · obtain ⟨more, w, hr, h⟩ := ih _ (e2 ▸ d) _ v rfl rfl i1 (by omega)
                exact ⟨l :: more, w, .cons hol hs hr, h⟩
          · exact ⟨[], u, .nil u, .inl hok⟩
  exact main _ _ u rfl rfl inv hn

end PRpc
