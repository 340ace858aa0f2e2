import Verif.Lemmas.ListenTurn
/-! Helper lemmas for C101: whose readings `accel listen` shows. -/

namespace PRpc

open Spec Props

variable {E : Type}

/-! ### The program's part of a run -/

theorem repl_one {I : WbIcd} {U : UsbCfg WbVal E Unit WbCtx} {r r' : ReplSys E} {l : RLabel} (h : repl_step I U r l = some r') :
    repl_run I U [l] r = some r' := by simp only [repl_run, h]

theorem repl_two {I : WbIcd} {U : UsbCfg WbVal E Unit WbCtx} {r r1 r' : ReplSys E} {l l' : RLabel} (h : repl_step I U r l = some r1)
    (h' : repl_step I U r1 l' = some r') : repl_run I U [l, l'] r = some r' := by simp only [repl_run, h, h']

theorem ls_step_repl {I : WbIcd} {U : UsbCfg WbVal E Unit WbCtx} {y y' : LsSys E} {l : LsLabel} (h : ls_step I U y l = some y') :
    ∃ rs, repl_run I U rs y.repl = some y'.repl := by
  have mp : ∀ {l : RLabel} {r0 : ReplSys E} {f : ReplSys E → LsSys E}, (∀ r, (f r).repl = r) → (repl_step I U r0 l).map f = some y' →
      repl_step I U r0 l = some y'.repl := by
    intro l r0 f hf h
    obtain ⟨r, h1, rfl⟩ := Option.map_eq_some_iff.mp h
    rw [hf, h1]
  cases l with
  | sys l =>
    simp only [ls_step] at h
    split at h
    · split at h
      · cases h
      · rename_i r hr
        split at h
        · cases h
        · cases h; exact ⟨_, repl_one hr⟩
    · cases h
  | line l => exact ⟨_, repl_one (mp (fun _ => rfl) h)⟩
  | returned =>
    simp only [ls_step] at h
    split at h
    · cases h
    · rename_i r hr
      split at h
      · split at h
        · cases h
        · rename_i r2 hr2
          cases h; exact ⟨_, repl_two hr hr2⟩
      · cases h; exact ⟨_, repl_one hr⟩
  | subscribed =>
    simp only [ls_step] at h
    split at h
    · split at h
      · cases h
      · rename_i r hr
        split at h
        · exact ⟨_, repl_two hr (mp (fun _ => rfl) h)⟩
        · exact ⟨_, repl_two hr (mp (fun _ => rfl) h)⟩
    · cases h
  | report_sub ok =>
    simp only [ls_step] at h
    split at h
    · exact ⟨_, repl_one (mp (fun _ => rfl) h)⟩
    · cases h
  | clock n => exact ⟨_, repl_one (mp (fun _ => rfl) h)⟩
  | received =>
    simp only [ls_step] at h
    split at h
    · split at h
      · cases h
      · rename_i r hr
        split at h
        · cases h
        · split at h
          · exact ⟨_, repl_two hr (mp (fun _ => rfl) h)⟩
          · cases h; exact ⟨_, repl_one hr⟩
        · exact ⟨_, repl_two hr (mp (fun _ => rfl) h)⟩
    · cases h
  | reported r => exact ⟨_, repl_one (mp (fun _ => rfl) h)⟩
  | acc l =>
    simp only [ls_step] at h
    split at h
    · obtain ⟨a, _, rfl⟩ := Option.map_eq_some_iff.mp h
      exact ⟨[], rfl⟩
    · cases h
  | reply =>
    simp only [ls_step] at h
    split at h
    · split at h
      · split at h
        · cases h
        · rename_i r hr
          cases h; exact ⟨_, repl_one hr⟩
      · cases h
    · cases h
  | publish =>
    simp only [ls_step] at h
    split at h
    · split at h
      · split at h
        · cases h
        · rename_i r hr
          cases h; exact ⟨_, repl_one hr⟩
      · cases h
    · cases h
  | sent =>
    simp only [ls_step] at h
    split at h
    · split at h
      · split at h
        · obtain ⟨a, _, rfl⟩ := Option.map_eq_some_iff.mp h
          exact ⟨[], rfl⟩
        · obtain ⟨a, _, rfl⟩ := Option.map_eq_some_iff.mp h
          exact ⟨[], rfl⟩
        · cases h
      · cases h
    · cases h

theorem ls_repl {I : WbIcd} {U : UsbCfg WbVal E Unit WbCtx} {y0 y : LsSys E} {ls : List LsLabel} (h : ls_run I U ls y0 = some y) :
    ∃ rs, repl_run I U rs y0.repl = some y.repl := by
  refine ls_induct (P := fun _ y => ∃ rs, repl_run I U rs y0.repl = some y.repl) ⟨[], rfl⟩ ?_ h
  rintro ls y l y' _ ⟨rs, hr⟩ hs
  obtain ⟨rs', hr'⟩ := ls_step_repl hs
  exact ⟨rs ++ rs', repl_run_append rs hr hr'⟩

/-! ### Whose task it is -/

theorem spawns_mem {t : Task WbVal Unit} {ok : Bool} : ∀ {es : List (Event WbVal E Unit)}, (t, ok) ∈ spawns es → .spawned t ok ∈ es := by
  intro es
  induction es with
  | nil => intro h; cases h
  | cons e es ih =>
    intro h
    cases e with
    | spawned t' ok' =>
      rcases List.mem_cons.mp h with e | h
      · cases e; exact List.mem_cons_self
      · exact List.mem_cons_of_mem _ (ih h)
    | _ => exact List.mem_cons_of_mem _ (ih h)

theorem drop_self {α : Type} (l : List α) : l.drop l.length = [] := List.drop_eq_nil_of_le (Nat.le_refl _)

theorem send_log {V SC Ctx : Type} {S : SysCfg V E SC Ctx} {s s' : Sys V E SC Ctx} {src : Src} {r : Option E × St V E SC Ctx} {f : Frame V}
    (h : Sys.send S s src r f = some s') : s'.srv = r.2 := by
  unfold Sys.send Sys.put at h
  split at h <;> (split at h <;> cases h <;> rfl)

/-- A task that a step spawns is new, and for the frame it takes. -/
theorem spawn_new {V SC Ctx : Type} {S : SysCfg V E SC Ctx} {s s' : Sys V E SC Ctx} {l : SLabel V} (h : sys_step S s l = some s') {t : Task V SC}
    (he : .spawned t true ∈ s'.srv.log.drop s.srv.log.length) : ∃ i : Nat, s'.tasks[i]? = some (s.taken, t) := by
  have same : ∀ {P : Prop}, s'.srv.log = s.srv.log → P := by
    intro P e
    rw [e, drop_self] at he
    cases he
  have snd : ∀ {P : Prop} {src : Src} {f f' : Frame V}, Sys.send S s src (sendOne S.env f s.srv) f' = some s' → P := by
    intro P src f f' h
    rw [send_log h, sendOne, List.drop_left] at he
    cases List.mem_singleton.mp he
  cases l with
  | client l =>
    obtain ⟨c, _, ⟨b, air, _, _, rfl⟩ | ⟨_, rfl⟩⟩ := client_step_cases h <;> exact same rfl
  | serve =>
    have key : ∀ {up : Bool} {srv : St V E SC Ctx}, s' = s.served S up srv → ∃ i : Nat, s'.tasks[i]? = some (s.taken, t) := by
      rintro up srv rfl
      have he : .spawned t true ∈ srv.log.drop s.srv.log.length := he
      exact List.mem_iff_getElem?.mp (List.mem_append_right s.tasks (spawned_ok_of_mem (j := s.taken) he))
    simp only [sys_step, serve] at h
    split at h
    · split at h
      · cases h
      · split at h
        · exact key (Option.some.inj h).symm
        · exact key (Option.some.inj h).symm
        · cases h
        · cases h
    · cases h
  | reject =>
    simp only [sys_step, reject] at h
    split at h
    · cases h; exact same rfl
    · cases h
  | flush =>
    simp only [sys_step] at h
    split at h
    · cases h
    · unfold Sys.put at h
      split at h
      · cases h; exact same rfl
      · cases h
  | task_reply i v =>
    simp only [sys_step, task_reply] at h
    split at h
    · cases h
    · split at h
      · cases h
      · split at h
        · cases h
        · exact snd h
  | app_publish key seq v => exact snd h

/-- The call that a task was started by. -/
theorem spawn_asked {I : WbIcd} {U : UsbCfg WbVal E Unit WbCtx} (S : WbSetup I U) {s : Sys WbVal E Unit WbCtx} (inv : SysInv (wb_full E I) U.S s)
    (hold : s.old = 0) {ms : List WbMethod} (hm : Made I s ms) {i j : Nat} {t : Task WbVal Unit} (ht : s.tasks[i]? = some (j, t)) {rqst : StartAccel}
    (harg : t.arg = .start rqst) : ∃ c, AskedAt U.S.disp s c j ∧ ms[c]? = some (.start_accelerometer rqst.interval_ms rqst.range) := by
  have hDi := wb_dispatches S.disp S.apart
  have hdecl := wb_declared E I U.S.kkind
  obtain ⟨h1, h2, h3, _, h5⟩ := wb_dispatcher S.disp
  obtain ⟨hdr, body, ⟨b, hb, hf⟩, htf⟩ := inv.tasks i j t ht (by rw [hold]; exact Nat.zero_le _)
  have hf' := (isFrame_iff ..).mpr hf
  have hlong := taken_long hDi hdecl (by rw [S.kkind]; exact Nat.le_refl _) inv hb hf'
  rcases taken_origin hDi hdecl inv ⟨b, hb, hf⟩ with ⟨c, cl, r, k, g1, g2, g3, g4, g5, g6, g7⟩ | ⟨p, pb, _, t, ht, _⟩
  · have hc := getElem?_lt g1
    obtain ⟨m, hmc⟩ : ∃ m, ms[c]? = some m := ⟨_, List.getElem?_eq_getElem (by rw [hm.len]; exact hc)⟩
    obtain ⟨k1, _, k3⟩ := hm.call c cl m g1 hmc
    have hrx : rxShort U.S.disp hdr = short (keyLen U.S.disp.n) (m.req I) := by
      rw [g7 hlong]
      rw [k1] at g3
      rw [VarKey.Key8.inj g3]
    refine ⟨c, ⟨cl, b, hdr, m.req I, g1, hb, by rw [← g6]; exact hf', by rw [g5]; rfl, k1, hlong, hrx⟩, ?_⟩
    rw [hmc]
    cases hrole : t.role with
    | topic =>
      obtain ⟨g, hg, _⟩ := htf.topic hrole
      rw [h3] at hg
      cases hg
    | endpoint =>
      obtain ⟨h, _, hfor, _, hfl, hd⟩ := htf.row hrole
      obtain ⟨e, he, rfl⟩ := method_row S.disp S.apart hrx hfor
      rw [harg, g6, k3] at hd
      cases m with
      | start_accelerometer ims range =>
        cases he
        simp only [wb_handler, WbMethod.body, reads_from (reads_start _)] at hd
        cases hd
        rfl
      | _ => cases he <;> cases hfl
  · cases ht

/-- A call that has returned was asked for before. -/
theorem back_asked {I : WbIcd} {U : UsbCfg WbVal E Unit WbCtx} (S : WbSetup I U) {s : Sys WbVal E Unit WbCtx} {c0 : WbCtx}
    (inv : SysInv (wb_full E I) U.S s) (cinv : CtxInv c0 U.S s) (hold : s.old = 0) (hlen : s.client.calls.length < 2 ^ 32) {c : Nat} {m : WbMethod}
    (h : ReturnedIn s c m) : ∃ j, j < s.taken ∧ AskedAt U.S.disp s c j := by
  obtain ⟨cl, r, hc, hres, hne⟩ := h
  obtain ⟨f, i, rfl⟩ := wb_result_resp hne
  obtain ⟨o, ho, j, hdr, req, h1, h2, h3, h4⟩ := board_reply S.disp S.kkind S.apart inv hold hlen hc hres
  exact ⟨j, (reply_handled cinv ho h4).1, reply_asked h2 h3 h4⟩

/-- The invariants of both moments. -/
theorem own_invs {I : WbIcd} {U : UsbCfg WbVal E Unit WbCtx} (S : WbSetup I U) {c0 : WbCtx} {us : List (ULabel WbVal)} {u : UsbSys WbVal E Unit WbCtx}
    (hrun : u_run U us (UsbSys.new c0) = some u) (hu : ∀ l ∈ us, WbUses I l) :
    UsbInv U.S u ∧ SysInv (wb_full E I) U.S u.abs ∧ CtxInv c0 U.S u.abs ∧ u.abs.old = 0 := by
  obtain ⟨uinv, ls', hr, hst⟩ := sim_run S.sound.buffer S.sound.some_buffer (usbInv_new U.S c0) (wb_small S.enc S.size u.sys) hrun
  exact ⟨uinv, sys_run_inv hr (fun l' hl' => by
    obtain ⟨l, hl, h⟩ := hst l' hl'
    exact stands_used h (wb_used (hu l hl))) (sysInv_new (wb_full E I) U.S c0), sys_run_ctxInv hr (ctxInv_new c0 U.S), sys_run_new_old hr⟩

/-- Only starts that ask for `goal`. -/
def OnlyStarts (goal : StartAccel) (ms : List WbMethod) : Prop := ∀ a b, .start_accelerometer a b ∈ ms → goal = ⟨a, b⟩

/-- A task started after `u1`, when all calls had returned, was started by a later call. -/
theorem own_spawn {I : WbIcd} {U : UsbCfg WbVal E Unit WbCtx} (S : WbSetup I U) {c0 : WbCtx} {us1 us2 : List (ULabel WbVal)}
    {u1 u u' : UsbSys WbVal E Unit WbCtx} {l : ULabel WbVal} (h1 : u_run U us1 (UsbSys.new c0) = some u1) (h2 : u_run U us2 u1 = some u)
    (h3 : u_step U u l = some u') (hu : ∀ k ∈ us1 ++ us2 ++ [l], WbUses I k) {ms extra : List WbMethod} (hb : AllBack u1 ms)
    (hm : Made I u'.sys (ms ++ extra)) (hlen : u'.sys.client.calls.length < 2 ^ 32) {goal : StartAccel} (hg : OnlyStarts goal extra)
    {t : Task WbVal Unit} {rqst : StartAccel} (he : .spawned t true ∈ u'.sys.srv.log.drop u.sys.srv.log.length) (harg : t.arg = .start rqst) :
    rqst = goal := by
  have hrun := u_run_append h1 h2
  obtain ⟨uinv1, inv1, cinv1, old1⟩ := own_invs S h1 (fun k hk => hu k (List.mem_append_left _ (List.mem_append_left _ hk)))
  obtain ⟨uinv, inv, cinv, old⟩ := own_invs S hrun (fun k hk => hu k (List.mem_append_left _ hk))
  obtain ⟨uinv', inv', cinv', old'⟩ := own_invs S (u_run_snoc hrun h3) hu
  obtain ⟨_, lb, hrb, _⟩ := sim_run S.sound.buffer S.sound.some_buffer uinv1 (wb_small S.enc S.size u.sys) h2
  obtain ⟨_, hst⟩ := sim_step S.sound.buffer S.sound.some_buffer uinv (wb_small S.enc S.size u.sys) h3
  rcases hst with e | ⟨l', _, hs⟩
  · have e : u'.abs.srv = u.abs.srv := congrArg (fun s : Sys WbVal E Unit WbCtx => s.srv) e
    have e : u'.sys.srv = u.sys.srv := e
    rw [e, drop_self] at he
    cases he
  · obtain ⟨i, hi⟩ := spawn_new hs he
    obtain ⟨c, ha, hc⟩ := spawn_asked S inv' old' (s := u'.abs) ⟨hm.len, hm.call⟩ hi harg
    have hl : Later u1.abs u'.abs := sys_run_later (ls := lb ++ [l']) (by rw [sys_run_append hrb]; simp only [sys_run, hs])
    rcases Nat.lt_or_ge c ms.length with hlt | hge
    · exfalso
      obtain ⟨m, hmc⟩ : ∃ m, ms[c]? = some m := ⟨_, List.getElem?_eq_getElem hlt⟩
      obtain ⟨j, hj, hja⟩ := back_asked S inv1 cinv1 old1 (Nat.lt_of_le_of_lt (later_calls hl) hlen) (hb c m hmc)
      have := asked_once (wb_dispatches S.disp S.apart) inv' hlen ha (asked_later hl hja)
      obtain ⟨x, hx⟩ := sys_run_contexts hrb
      have hx := congrArg List.length hx
      simp only [contexts, List.length_append, List.length_singleton, cinv.len, cinv1.len] at hx
      omega
    · rw [List.getElem?_append_right hge] at hc
      exact (hg _ _ (List.mem_of_getElem? hc)).symm

/-! ### During a turn -/

/-- Where the program can be. -/
def TurnPc (goal : StartAccel) : ReplPc → Prop
  | .calling (.start_accelerometer a b) (.listen _) => goal = ⟨a, b⟩
  | .calling .stop_accelerometer .listened => True
  | .calling _ _ => False
  | .waiting _ _ (.listen _) => True
  | .waiting _ _ .listened => True
  | .waiting _ _ _ => False
  | .listening _ => True
  | .receiving _ => True
  | .panicked => True
  | .reading => True
  | _ => False

structure Owned (I : WbIcd) (U : UsbCfg WbVal E Unit WbCtx) (u1 : UsbSys WbVal E Unit WbCtx) (ms : List WbMethod) (goal : StartAccel) (y : LsSys E) :
    Prop where
  run : ∃ us, u_run U us u1 = some y.repl.usb ∧ ∀ l ∈ us, WbUses I l
  made : ∃ extra, Made I y.repl.usb.sys (ms ++ extra) ∧ OnlyStarts goal extra
  pc : TurnPc goal y.repl.pc
  task : ∀ t, y.acc.task = some t → t.rqst = goal

theorem fw_rqst {s s' : Fw} {l : FwLabel} {goal : StartAccel} (h : fw_step s l = some s')
    (hl : acc_waits l = true ∨ (∃ ok, l = .acc_replied ok) ∨ ∃ ok, l = .acc_published ok)
    (hg : ∀ t, s.task = some t → t.rqst = goal) : ∀ t, s'.task = some t → t.rqst = goal := by
  have hstep : ∃ t, s.task = some t ∧ acc_step s t l = some s' := by
    simp only [fw_step] at h
    split at h
    · cases h
    · rcases hl with hl | ⟨ok, rfl⟩ | ⟨ok, rfl⟩
      · cases l <;> first | cases hl | skip
        all_goals
          simp only at h
          split at h
          · rename_i t ht; exact ⟨t, ht, h⟩
          · cases h
      all_goals
        simp only at h
        split at h
        · rename_i t ht; exact ⟨t, ht, h⟩
        · cases h
  obtain ⟨t, ht, h⟩ := hstep
  have hr := hg t ht
  have chk : ∀ {s0 : Fw} {t0 : AccTask}, t0.rqst = goal → ∀ t, (acc_check s0 t0).task = some t → t.rqst = goal := by
    intro s0 t0 h0 t h
    unfold acc_check at h
    split at h
    · cases h
    · cases h; exact h0
  cases l with
  | acc_run =>
    simp only [acc_step] at h
    split at h
    · split at h
      · cases h
      · cases h
        intro t' ht'
        cases ht'
        exact hr
    · cases h
  | acc_replied ok =>
    simp only [acc_step] at h
    split at h
    · split at h
      · cases h
        intro t' ht'
        cases ht'
        exact hr
      · cases h
        intro t' ht'
        cases ht'
    · cases h
  | acc_ranged ok =>
    simp only [acc_step] at h
    split at h
    · split at h
      · cases h
        exact chk hr
      · cases h
        exact hg
    · cases h
  | acc_tick =>
    simp only [acc_step] at h
    split at h
    · cases h
      intro t' ht'
      cases ht'
      exact hr
    · cases h
  | acc_sampled a =>
    simp only [acc_step] at h
    split at h
    · cases h
      intro t' ht'
      cases ht'
      exact hr
    · cases h
      exact hg
    · cases h
  | acc_published ok =>
    simp only [acc_step] at h
    split at h
    · split at h
      · cases h
        exact chk hr
      · cases h
        intro t' ht'
        cases ht'
    · cases h
  | _ => rcases hl with hl | ⟨ok, hl⟩ | ⟨ok, hl⟩ <;> cases hl

theorem served_rqst {acc acc' : Fw} {ix ix' : Nat} {u u' : UsbSys WbVal E Unit WbCtx} (h : ls_served acc ix u u' = some (acc', ix')) {goal : StartAccel}
    (hg : ∀ t, acc.task = some t → t.rqst = goal)
    (hs : ∀ (t : Task WbVal Unit) rqst, .spawned t true ∈ u'.sys.srv.log.drop u.sys.srv.log.length → t.arg = .start rqst → rqst = goal) :
    ∀ t, acc'.task = some t → t.rqst = goal := by
  simp only [ls_served] at h
  split at h
  · rename_i t ok rest hsp
    split at h
    · rename_i hok
      split at h
      · rename_i rqst e1
        cases h
        have hn : acc.task = none := by simpa using hok.symm
        have hr := hs t rqst (spawns_mem (by rw [hsp]; exact List.mem_cons_self)) e1
        intro t' ht'
        simp only [start_handler, hn] at ht'
        cases ht'
        exact hr
      · cases h
        exact hg
    · cases h
  · split at h
    · cases h
      exact hg
    · split at h
      · cases h
        intro t ht
        refine hg t ?_
        simp only [accelerometer_stop_handler] at ht
        split at ht <;> exact ht
      · cases h

/-- What is known of the moment when the program subscribes. -/
structure OwnStart (I : WbIcd) (U : UsbCfg WbVal E Unit WbCtx) (c0 : WbCtx) (us : List (ULabel WbVal)) (u1 : UsbSys WbVal E Unit WbCtx)
    (ms : List WbMethod) : Prop where
  run : u_run U us (UsbSys.new c0) = some u1
  uses : ∀ l ∈ us, WbUses I l
  back : AllBack u1 ms

theorem owned_step {I : WbIcd} {U : UsbCfg WbVal E Unit WbCtx} (S : WbSetup I U) {c0 : WbCtx} {us1 : List (ULabel WbVal)}
    {u1 : UsbSys WbVal E Unit WbCtx} {ms : List WbMethod} (o : OwnStart I U c0 us1 u1 ms) {goal : StartAccel} {y y' : LsSys E} {l : LsLabel}
    {vs : List (ULabel WbVal)} (h : LsMove I U y l y' vs) (hl : LsLabel.isLine l = false) (hlen : y'.repl.usb.sys.client.calls.length < 2 ^ 32)
    (w : Owned I U u1 ms goal y) : Owned I U u1 ms goal y' := by
  obtain ⟨us, hus, huses⟩ := w.run
  obtain ⟨extra, hmade, honly⟩ := w.made
  have run1 : ∀ {k : ULabel WbVal} {u' : UsbSys WbVal E Unit WbCtx}, u_step U y.repl.usb k = some u' → WbUses I k →
      ∃ us, u_run U us u1 = some u' ∧ ∀ l ∈ us, WbUses I l := by
    intro k u' hs hk
    refine ⟨us ++ [k], u_run_snoc hus hs, fun l hl => ?_⟩
    rcases List.mem_append.mp hl with h | h
    · exact huses l h
    · rw [List.mem_singleton.mp h]; exact hk
  have same : ∀ {k : ULabel WbVal} {u' : UsbSys WbVal E Unit WbCtx}, u_step U y.repl.usb k = some u' → WbUses I k →
      (∀ req resp body, k ≠ .client (.call_begin req resp body)) → Made I u'.sys (ms ++ extra) := by
    intro k u' hs hk hn
    exact made_same hmade (u_step_same hs hn (by rintro rqst resp rfl; exact hk))
  have no : ∀ {P : Prop} {pc : ReplPc}, y.repl.pc = pc → ¬ TurnPc goal pc → P := by
    intro P pc e hn
    have := w.pc
    rw [e] at this
    exact absurd this hn
  cases h with
  | sys k pc u acc ix ha hp hu hv =>
    have fin : ∀ {extra'}, Made I u.sys (ms ++ extra') → OnlyStarts goal extra' → WbUses I k → TurnPc goal pc →
        Owned I U u1 ms goal { y with repl := { y.repl with usb := u, pc := pc }, acc := acc, ix := ix } := by
      intro extra' hm ho hk hpc
      refine ⟨run1 hu hk, ⟨extra', hm, ho⟩, hpc, served_rqst hv w.task fun t rqst he harg => ?_⟩
      refine own_spawn S o.run hus hu (fun x hx => ?_) o.back hm hlen ho he harg
      rcases List.mem_append.mp hx with h | h
      · exact (List.mem_append.mp h).elim (o.uses x) (huses x)
      · rw [List.mem_singleton.mp h]; exact hk
    rcases allows_cases hp with ⟨m, kk, e1, rfl, rfl⟩ | ⟨rfl, h1, h2, h3, _⟩
    · obtain ⟨cl, e, g1, g2, g3⟩ := u_step_begin hu
      have hm := made_more hmade e g1 g2 g3
      rw [List.append_assoc] at hm
      have hpc := w.pc
      rw [e1] at hpc
      refine fin hm ?_ ⟨m, rfl, rfl, rfl⟩ ?_
      · intro a b hab
        rcases List.mem_append.mp hab with h | h
        · exact honly a b h
        · cases List.mem_singleton.mp h
          cases kk <;> first | exact hpc | exact hpc.elim
      · cases m <;> cases kk <;> first | exact hpc.elim | trivial
    · exact fin (same hu h1 h3) honly h1 w.pc
  | line l hp => cases hl
  | returned m c k cl r hp hc hr hn =>
    refine ⟨w.run, w.made, ?_, w.task⟩
    obtain ⟨_, _, h3⟩ := returned_pc k (wb_result m r)
    show TurnPc goal (repl_returned k (wb_result m r)).2
    rcases h3 with h3 | ⟨dur, _, h3⟩ | ⟨_, h3⟩ | ⟨h3, _⟩
    · rw [h3]; trivial
    · rw [h3]; trivial
    · rw [h3]; trivial
    · have hpc := w.pc
      rw [hp] at hpc
      cases k <;> first | exact hpc.elim | (cases h3; done)
  | stopped m c cl r id u hp hc hr hq hi hu =>
    have hk : WbUses I (.client (.drop_multi id)) := trivial
    exact ⟨run1 hu hk, ⟨extra, same hu hk nofun, honly⟩, trivial, w.task⟩
  | sub_ok m range dur u i hp hu hid => exact no hp id
  | sub_fail m range dur u hp hu => exact no hp id
  | report_sub ok hp => exact no hp id
  | clock n dur pc hp hq =>
    refine ⟨w.run, w.made, ?_, w.task⟩
    rcases hq with rfl | rfl <;> trivial
  | got dur id u f a hp hi hu hf ha =>
    have hk : WbUses I (.client (.recv_multi id)) := trivial
    exact ⟨run1 hu hk, ⟨extra, same hu hk nofun, honly⟩, trivial, w.task⟩
  | skip dur id u f hp hi hu hf ha =>
    have hk : WbUses I (.client (.recv_multi id)) := trivial
    exact ⟨run1 hu hk, ⟨extra, same hu hk nofun, honly⟩, w.pc, w.task⟩
  | lost dur id u r hp hi hu hf ha =>
    have hk : WbUses I (.client (.recv_multi id)) := trivial
    exact ⟨run1 hu hk, ⟨extra, same hu hk nofun, honly⟩, trivial, w.task⟩
  | reported r pc ps hp hq hn => exact no hp id
  | acc l acc hw hf => exact ⟨w.run, w.made, w.pc, fw_rqst hf (.inl hw) w.task⟩
  | reply t u s hh ht hp hn hu =>
    have hk : WbUses I (.task_reply y.ix .unit) := trivial
    exact ⟨run1 hu hk, ⟨extra, same hu hk nofun, honly⟩, w.pc, w.task⟩
  | publish t a u s hh ht hp hn hu hok =>
    have hk : WbUses I (.app_publish I.accel.key (.Seq1 t.seq) (.accel a)) := ⟨rfl, a, rfl⟩
    exact ⟨run1 hu hk, ⟨extra, same hu hk nofun, honly⟩, w.pc, w.task⟩
  | sent t s acc k ht hs' hk hf =>
    refine ⟨w.run, w.made, w.pc, fw_rqst hf ?_ w.task⟩
    rcases hk with ⟨_, e⟩ | ⟨a, _, e⟩
    · exact .inr (.inl ⟨_, e⟩)
    · exact .inr (.inr ⟨_, e⟩)

/-- If no task runs when the program subscribes, all readings that are published in its turn are of the stream it has asked for. -/
theorem sensed_own {I : WbIcd} {U : UsbCfg WbVal E Unit WbCtx} (S : WbSetup I U) {uid : BitVec 64} {held : Nat → Bool} {ls1 ls2 : List LsLabel}
    {y1 y2 y : LsSys E} {id : Nat} {ms : BitVec 32} {range : AccelRange} {dur : BitVec 32}
    (h1 : ls_run I U ls1 (LsSys.start uid held) = some y1) (h2 : ls_step I U y1 .subscribed = some y2) (hid : y2.sub = some id)
    (hpc : y1.repl.pc = .subscribing ms range dur) (hnone : y1.acc.task = none) (h3 : ls_run I U ls2 y2 = some y)
    (hl : ∀ l ∈ ls2, LsLabel.isLine l = false) (hlen : y.repl.usb.sys.client.calls.length < 2 ^ 32) :
    ∀ s ∈ sensed I U ls2 y2, s.rqst = ⟨ms, range⟩ := by
  have t := turn_of S h1 h2 hid
  obtain ⟨ms', range', dur', hp, hu, _, hq, _⟩ := subscribed_ok t.well t.sub t.id
  rw [hpc] at hp
  cases hp
  obtain ⟨rs, hrs⟩ := ls_repl h1
  have grow : ∀ {ls : List LsLabel} {z z' : LsSys E}, ls_run I U ls z = some z' →
      z.repl.usb.sys.client.calls.length ≤ z'.repl.usb.sys.client.calls.length := by
    intro ls z z' h
    obtain ⟨rs, hrs⟩ := ls_repl h
    exact repl_run_grow rs hrs
  have hle : y1.repl.usb.sys.client.calls.length ≤ y.repl.usb.sys.client.calls.length :=
    Nat.le_trans (grow (ls_run_one h2)) (grow h3)
  obtain ⟨mths, hinv, hst⟩ := replInv_run S rs (replInv_start I U uid held) hrs (Nat.lt_of_le_of_lt hle hlen)
  rw [hpc] at hst
  have o : OwnStart I U (wb_ctx uid held) _ y1.repl.usb mths := ⟨hinv.run, hinv.uses, hst.1⟩
  have w2 : Owned I U y1.repl.usb mths ⟨ms, range⟩ y2 := by
    obtain ⟨vs, hm⟩ := ls_moves h2
    refine ⟨⟨[.client (.sub_multi I.accel.key 8)], by simp only [u_run, hu], fun l hl => ?_⟩, ⟨[], ?_, nofun⟩, by rw [hq]; rfl, ?_⟩
    · rw [List.mem_singleton.mp hl]; trivial
    · rw [List.append_nil]
      exact made_same hinv.made (u_step_same hu nofun nofun)
    · cases hm with
      | sub_ok => intro t ht; rw [show y1.acc.task = none from hnone] at ht; cases ht
      | sub_fail => intro t ht; rw [show y1.acc.task = none from hnone] at ht; cases ht
  revert hl hlen
  suffices H : (∀ l ∈ ls2, LsLabel.isLine l = false) → y.repl.usb.sys.client.calls.length < 2 ^ 32 →
      Owned I U y1.repl.usb mths ⟨ms, range⟩ y ∧ ∀ s ∈ sensed I U ls2 y2, s.rqst = ⟨ms, range⟩ from fun a b => (H a b).2
  refine ls_induct (P := fun ls2 y => (∀ l ∈ ls2, LsLabel.isLine l = false) → y.repl.usb.sys.client.calls.length < 2 ^ 32 →
      Owned I U y1.repl.usb mths ⟨ms, range⟩ y ∧ ∀ s ∈ sensed I U ls2 y2, s.rqst = ⟨ms, range⟩) (fun _ _ => ⟨w2, fun s hs => (by cases hs)⟩) ?_ h3
  intro ls y l y' hr ih hs hl hlen
  obtain ⟨w, hsen⟩ := ih (fun k hk => hl k (List.mem_append_left _ hk)) (Nat.lt_of_le_of_lt (grow (ls_run_one hs)) hlen)
  obtain ⟨vs, hm⟩ := ls_moves hs
  refine ⟨owned_step S o hm (hl l (List.mem_append_right _ (List.mem_singleton_self _))) hlen w, fun s hs' => ?_⟩
  rw [sensed_append hr] at hs'
  rcases List.mem_append.mp hs' with h | h
  · exact hsen s h
  · simp only [sensed, hs, List.append_nil] at h
    cases hm with
    | publish t a u sd hh ht hp hn hu hok =>
      simp only [sensedIn, ht, hp] at h
      rw [List.mem_singleton.mp h]
      exact w.task t ht
    | _ => cases h

end PRpc
