import Verif.Lemmas.Accel
import Verif.Lemmas.Caps
import Verif.Lemmas.Logging
import Verif.Props.NoGaps
import Verif.Spec.Listen
/-! Helper lemmas for C101: `accel listen`, step by step. -/

namespace PRpc

open Spec Props

variable {E : Type}

/-! ### The steps -/

/-- The steps one by one, with those of the client, the cable and the server that they are made of. -/
inductive LsMove (I : WbIcd) (U : UsbCfg WbVal E Unit WbCtx) (y : LsSys E) : LsLabel → LsSys E → List (ULabel WbVal) → Prop where
  | sys (l : ULabel WbVal) (pc : ReplPc) (u : UsbSys WbVal E Unit WbCtx) (acc : Fw) (ix : Nat) : ls_allows I y.sub y.acc.halted l = true →
      repl_allows I y.repl.pc y.repl.usb.sys.client.calls.length l = some pc → u_step U y.repl.usb l = some u →
      ls_served y.acc y.ix y.repl.usb u = some (acc, ix) →
      LsMove I U y (.sys l) { y with repl := { y.repl with usb := u, pc := pc }, acc := acc, ix := ix } [l]
  | line (l : List Char) : y.repl.pc = .reading →
      LsMove I U y (.line l) { y with repl := { y.repl with pc := (repl_line l).2, term := y.repl.term ++ .typed l :: (repl_line l).1.map .printed } } []
  | returned (m : WbMethod) (c : Nat) (k : ReplCont) (cl : Call) (r : CallRes) : y.repl.pc = .waiting m c k →
      y.repl.usb.sys.client.calls[c]? = some cl → cl.phase = .done r →
      (∀ id, y.sub = some id → k = .listened → (repl_returned k (wb_result m r)).2 ≠ .reading) →
      LsMove I U y .returned { y with repl := { y.repl with
        pc := (repl_returned k (wb_result m r)).2, term := y.repl.term ++ (repl_returned k (wb_result m r)).1.map .printed } } []
  | stopped (m : WbMethod) (c : Nat) (cl : Call) (r : CallRes) (id : Nat) (u : UsbSys WbVal E Unit WbCtx) : y.repl.pc = .waiting m c .listened →
      y.repl.usb.sys.client.calls[c]? = some cl → cl.phase = .done r → (repl_returned .listened (wb_result m r)).2 = .reading → y.sub = some id →
      u_step U y.repl.usb (.client (.drop_multi id)) = some u →
      LsMove I U y .returned { y with
        sub := none, repl := { usb := u, pc := .reading, term := y.repl.term ++ (repl_returned .listened (wb_result m r)).1.map .printed } } [.client (.drop_multi id)]
  | sub_ok (ms : BitVec 32) (range : AccelRange) (dur : BitVec 32) (u : UsbSys WbVal E Unit WbCtx) (id : Nat) :
      y.repl.pc = .subscribing ms range dur → u_step U y.repl.usb (.client (.sub_multi I.accel.key 8)) = some u →
      (subscribe_multi_inner y.repl.usb.sys.client.subs I.accel.key 8).1 = .Ok id →
      LsMove I U y .subscribed { y with sub := some id, repl := { y.repl with usb := u, pc := .calling (.start_accelerometer ms range) (.listen dur) } }
        [.client (.sub_multi I.accel.key 8)]
  | sub_fail (ms : BitVec 32) (range : AccelRange) (dur : BitVec 32) (u : UsbSys WbVal E Unit WbCtx) :
      y.repl.pc = .subscribing ms range dur → u_step U y.repl.usb (.client (.sub_multi I.accel.key 8)) = some u →
      LsMove I U y .subscribed { y with repl := { y.repl with usb := u, pc := .panicked } } [.client (.sub_multi I.accel.key 8)]
  | report_sub (ok : Bool) : y.repl.pc = .calling .schemas .schema →
      LsMove I U y (.report_sub ok) { y with repl := { y.repl with pc := if ok then .calling .schemas .schema else .panicked } } []
  | clock (n : Nat) (dur : BitVec 32) (pc : ReplPc) : y.repl.pc = .listening dur →
      (pc = .receiving dur ∨ pc = .calling .stop_accelerometer .listened) →
      LsMove I U y (.clock n) { y with repl := { y.repl with pc := pc } } []
  | got (dur : BitVec 32) (id : Nat) (u : UsbSys WbVal E Unit WbCtx) (f : RpcFrame) (a : Acceleration) : y.repl.pc = .receiving dur →
      y.sub = some id → u_step U y.repl.usb (.client (.recv_multi id)) = some u →
      (multi_recv y.repl.usb.sys.client.subs id).1 = some (.Ok f) → from_bytes take_accel f.body = some a →
      LsMove I U y .received { y with repl := { usb := u, pc := .listening dur, term := y.repl.term ++ [.printed (.acc a)] } }
        [.client (.recv_multi id)]
  | skip (dur : BitVec 32) (id : Nat) (u : UsbSys WbVal E Unit WbCtx) (f : RpcFrame) : y.repl.pc = .receiving dur →
      y.sub = some id → u_step U y.repl.usb (.client (.recv_multi id)) = some u →
      (multi_recv y.repl.usb.sys.client.subs id).1 = some (.Ok f) → from_bytes take_accel f.body = none →
      LsMove I U y .received { y with repl := { y.repl with usb := u } } [.client (.recv_multi id)]
  | lost (dur : BitVec 32) (id : Nat) (u : UsbSys WbVal E Unit WbCtx) (r : MultiRes) : y.repl.pc = .receiving dur →
      y.sub = some id → u_step U y.repl.usb (.client (.recv_multi id)) = some u →
      (multi_recv y.repl.usb.sys.client.subs id).1 = some r → (∀ f, r ≠ .Ok f) →
      LsMove I U y .received { y with repl := { y.repl with usb := u, pc := .panicked } } [.client (.recv_multi id)]
  | reported (r : Option SchemaReport) (pc : ReplPc) (ps : List Printed) : y.repl.pc = .reporting → (pc = .reading ∨ pc = .panicked) →
      (∀ a, .acc a ∉ ps) → LsMove I U y (.reported r) { y with repl := { y.repl with pc := pc, term := y.repl.term ++ ps.map .printed } } []
  | acc (l : FwLabel) (acc : Fw) : acc_waits l = true → fw_step y.acc l = some acc → LsMove I U y (.acc l) { y with acc := acc } []
  | reply (t : AccTask) (u : UsbSys WbVal E Unit WbCtx) (s : AccSend) : y.acc.halted = false → y.acc.task = some t → t.pc = .replying → y.send = none →
      u_step U y.repl.usb (.task_reply y.ix .unit) = some u →
      LsMove I U y .reply { y with repl := { y.repl with usb := u }, send := some s } [.task_reply y.ix .unit]
  | publish (t : AccTask) (a : Acceleration) (u : UsbSys WbVal E Unit WbCtx) (s : AccSend) : y.acc.halted = false → y.acc.task = some t →
      t.pc = .publishing a → y.send = none → u_step U y.repl.usb (.app_publish I.accel.key (.Seq1 t.seq) (.accel a)) = some u →
      s.ok = (sender_publish U.S.env U.S.kkind I.accel.key (.Seq1 t.seq) (.val (.accel a)) y.repl.usb.sys.srv).1.isNone →
      LsMove I U y .publish { y with repl := { y.repl with usb := u }, send := some s } [.app_publish I.accel.key (.Seq1 t.seq) (.accel a)]
  | sent (t : AccTask) (s : AccSend) (acc : Fw) (l : FwLabel) : y.acc.task = some t → y.send = some s →
      ((t.pc = .replying ∧ l = .acc_replied s.ok) ∨ ∃ a, t.pc = .publishing a ∧ l = .acc_published s.ok) → fw_step y.acc l = some acc →
      LsMove I U y .sent { y with acc := acc, send := none } []

theorem repl_sys {I : WbIcd} {U : UsbCfg WbVal E Unit WbCtx} {r r' : ReplSys E} {l : ULabel WbVal} (h : repl_step I U r (.sys l) = some r') :
    ∃ pc u, repl_allows I r.pc r.usb.sys.client.calls.length l = some pc ∧ u_step U r.usb l = some u ∧ r' = { r with usb := u, pc := pc } := by
  simp only [repl_step] at h
  split at h
  · cases h
  · rename_i pc hp
    split at h
    · cases h
    · rename_i u hu
      cases h
      exact ⟨pc, u, hp, hu, rfl⟩

theorem ls_moves {I : WbIcd} {U : UsbCfg WbVal E Unit WbCtx} {y y' : LsSys E} {l : LsLabel} (h : ls_step I U y l = some y') :
    ∃ us, LsMove I U y l y' us := by
  cases l with
  | sys l =>
    simp only [ls_step] at h
    split at h
    · rename_i ha
      split at h
      · cases h
      · rename_i r hr
        obtain ⟨pc, u, hp, hu, rfl⟩ := repl_sys hr
        split at h
        · cases h
        · rename_i acc ix hs
          cases h
          exact ⟨_, .sys l pc u acc ix ha hp hu hs⟩
    · cases h
  | line l =>
    simp only [ls_step, repl_step] at h
    split at h
    · rename_i hp
      cases h
      exact ⟨_, .line l hp⟩
    · cases h
  | returned =>
    simp only [ls_step] at h
    split at h
    · cases h
    · rename_i r hr
      simp only [repl_step] at hr
      split at hr
      · rename_i m c k hp
        split at hr
        · cases hr
        · rename_i cl hcl
          split at hr
          · rename_i q hq
            cases hr
            simp only [hp] at h
            split at h
            · rename_i x1 x2 id e1 e2 e3
              cases e1
              split at h
              · cases h
              · rename_i r hr
                obtain ⟨pc, u, hpc, hu, rfl⟩ := repl_sys hr
                cases h
                simp only at e2 hpc hu
                simp only [repl_allows, e2] at hpc
                cases hpc
                exact ⟨_, .stopped m c cl q id u hp hcl hq e2 e3 hu⟩
            · rename_i hn
              cases h
              refine ⟨_, .returned m c k cl q hp hcl hq ?_⟩
              intro id e1 e2 e3
              exact hn m c id (by rw [e2]) e3 e1
          · cases hr
      · cases hr
  | subscribed =>
    simp only [ls_step] at h
    split at h
    · rename_i ms range dur hp
      split at h
      · cases h
      · rename_i r hr
        obtain ⟨pc, u, hpc, hu, rfl⟩ := repl_sys hr
        simp only [repl_allows, hp, true_or, if_true] at hpc
        cases hpc
        split at h
        · rename_i id hid
          simp only [repl_step] at h
          cases h
          exact ⟨_, .sub_ok ms range dur u id hp hu hid⟩
        · simp only [repl_step] at h
          cases h
          exact ⟨_, .sub_fail ms range dur u hp hu⟩
    · cases h
  | report_sub ok =>
    simp only [ls_step] at h
    split at h
    · rename_i hp
      simp only [repl_step, hp] at h
      cases h
      exact ⟨_, .report_sub ok hp⟩
    · cases h
  | clock n =>
    simp only [ls_step, repl_step] at h
    split at h
    · rename_i dur hp
      cases h
      exact ⟨_, .clock n dur _ hp (by split <;> simp)⟩
    · cases h
  | received =>
    simp only [ls_step] at h
    split at h
    · rename_i dur id hp hs
      split at h
      · cases h
      · rename_i r hr
        obtain ⟨pc, u, hpc, hu, rfl⟩ := repl_sys hr
        simp only [repl_allows, hp] at hpc
        cases hpc
        split at h
        · cases h
        · rename_i f hf
          split at h
          · rename_i a ha
            simp only [repl_step] at h
            cases h
            exact ⟨_, .got dur id u f a hp hs hu hf ha⟩
          · rename_i ha
            cases h
            have := LsMove.skip (I := I) (U := U) (y := y) dur id u f hp hs hu hf ha
            rw [← hp]
            exact ⟨_, this⟩
        · rename_i q hn hq
          simp only [repl_step] at h
          cases h
          exact ⟨_, .lost dur id u _ hp hs hu hq (fun f e => hn f (by rw [e]))⟩
    · cases h
  | reported r =>
    simp only [ls_step, repl_step] at h
    split at h
    · rename_i r hp
      cases h
      exact ⟨_, .reported (some r) .reading [.report r, .prompt] hp (.inl rfl) (by simp)⟩
    · rename_i hp
      cases h
      have := LsMove.reported (I := I) (U := U) (y := y) none .panicked [] hp (.inr rfl) (by simp)
      simp only [List.map_nil, List.append_nil] at this
      exact ⟨_, this⟩
    · cases h
  | acc l =>
    simp only [ls_step] at h
    split at h
    · rename_i ha
      obtain ⟨acc, hf, rfl⟩ := Option.map_eq_some_iff.mp h
      exact ⟨_, .acc l acc ha hf⟩
    · cases h
  | reply =>
    simp only [ls_step] at h
    split at h
    · rename_i t hh ht hs
      split at h
      · rename_i hp
        split at h
        · cases h
        · rename_i r hr
          obtain ⟨pc, u, hpc, hu, rfl⟩ := repl_sys hr
          simp only [repl_allows] at hpc
          cases hpc
          cases h
          exact ⟨_, .reply t u _ hh ht hp hs hu⟩
      · cases h
    · cases h
  | publish =>
    simp only [ls_step] at h
    split at h
    · rename_i t hh ht hs
      split at h
      · rename_i a hp
        split at h
        · cases h
        · rename_i r hr
          obtain ⟨pc, u, hpc, hu, rfl⟩ := repl_sys hr
          simp only [repl_allows, if_true] at hpc
          cases hpc
          cases h
          exact ⟨_, .publish t a u _ hh ht hp hs hu rfl⟩
      · cases h
    · cases h
  | sent =>
    simp only [ls_step] at h
    split at h
    · rename_i t s ht hs
      split at h
      · split at h
        · rename_i hp
          obtain ⟨acc, hf, rfl⟩ := Option.map_eq_some_iff.mp h
          exact ⟨_, .sent t s acc _ ht hs (.inl ⟨hp, rfl⟩) hf⟩
        · rename_i a hp
          obtain ⟨acc, hf, rfl⟩ := Option.map_eq_some_iff.mp h
          exact ⟨_, .sent t s acc _ ht hs (.inr ⟨a, hp, rfl⟩) hf⟩
        · cases h
      · cases h
    · cases h

end PRpc
