import Verif.Lemmas.TopicsUsb
import Verif.Lemmas.UsbNext
import Verif.Props.ClientSubs
import Verif.Props.Session
/-! Publications and their subscribers: C94. -/

namespace PRpc.Props

open Spec

variable {V E SC Ctx : Type}

theorem topicCtx_of {a : App V E SC Ctx} {S : SysCfg V E SC Ctx} (hD : define_dispatch a = .ok S.disp) (hdecl : Declared a S.kkind)
    (hapart : KeysApart a S) {key : Key} (ht : AppTopic a S.kkind key)
    (hdist : short (keyLen S.kkind) key ≠ short (keyLen S.kkind) a.std.error) : TopicCtx a S key :=
  ⟨dispatches hD, hdecl, hapart, ht, hdist⟩

theorem subscribing_still {S : SysCfg V E SC Ctx} {s s' : Sys V E SC Ctx} {l : Label}
    (hl : ∃ k d, l = .sub_repl k d ∨ l = .sub_excl k d ∨ l = .sub_multi k d) (h : sys_step S s (.client l) = some s') :
    step S.cfg s.client l = some s'.client ∧ s'.client.subs.arrived = s.client.subs.arrived ∧ (CaughtUp s → CaughtUp s') := by
  have hk : step S.cfg s.client l = some s'.client := by
    rcases step_client h with ⟨_, e⟩ | ⟨k, e, h⟩
    · cases e
    · cases e; exact h
  have ha : s'.air = s.air := by
    simp only [sys_step] at h
    obtain ⟨c, _, ⟨b, air, e, _⟩ | ⟨_, rfl⟩⟩ := client_step_cases h
    · obtain ⟨k, d, rfl | rfl | rfl⟩ := hl <;> cases e
    · rfl
  have hi : s'.client.in_pc = s.client.in_pc ∧ s'.client.subs.arrived = s.client.subs.arrived := by
    obtain ⟨k, d, rfl | rfl | rfl⟩ := hl
    · simp only [step] at hk
      split at hk
      · injection hk with hk
        rw [← hk]
        refine ⟨rfl, ?_⟩
        simp only [subscribe_inner]
        repeat' split
        all_goals rfl
      · cases hk
    · simp only [step] at hk
      split at hk
      · injection hk with hk
        rw [← hk]
        refine ⟨rfl, ?_⟩
        simp only [subscribe_inner_exclusive]
        repeat' split
        all_goals rfl
      · cases hk
    · simp only [step] at hk
      split at hk
      · injection hk with hk
        rw [← hk]
        refine ⟨rfl, ?_⟩
        simp only [subscribe_multi_inner]
        repeat' split
        all_goals rfl
      · cases hk
  exact ⟨hk, hi.2, fun hc => ⟨by rw [ha]; exact hc.air, by rw [hi.1]; exact hc.looked, by rw [hi.1]; exact hc.running⟩⟩

/-- What there is to say of a run with a subscription, whatever its kind. -/
theorem topic_core {a : App V E SC Ctx} {S : SysCfg V E SC Ctx} {key : Key} (x : TopicCtx a S key) {s0 s2 s : Sys V E SC Ctx}
    {ls1 ls2 : List (SLabel V)} (inv0 : SysInv a S s0) (hq : s0.pending = [] ∧ s0.outs = []) (hc : s0.client = Client.new ∧ s0.air = [])
    (h1 : sys_run S ls1 s0 = some s2) (u1 : ∀ k ∈ ls1, Used a k) (h3 : sys_run S ls2 s2 = some s) (u2 : ∀ k ∈ ls2, Used a k) :
    SysInv a S s ∧ (∃ z, Watch S s z) ∧
    ∃ late zs, Heard S key s2 s (publications S key ls1 s0) late (publications S key ls2 s2) zs := by
  have w0 : Watch S s0 [] := (ordInv_start S hc.1 hq.2 hc.2).watch
  have pr0 : PendReq s0 := by
    intro o ho
    rw [hq.1] at ho
    cases ho
  refine ⟨sys_run_inv h3 u2 (sys_run_inv h1 u1 inv0), ?_, heard_of x inv0 pr0 hq.2 w0 h1 u1 h3 u2 (arrived_mono (client_run h3))⟩
  obtain ⟨z1, w1, _⟩ := watch_run h1 w0
  obtain ⟨z, w, _⟩ := watch_run h3 w1
  exact ⟨z, w⟩

theorem sessions_new {a : App V E SC Ctx} {S : SysCfg V E SC Ctx} {es : List (Sys V E SC Ctx)} {s0 : Sys V E SC Ctx} (h : Sessions a S es s0) :
    s0.client = Client.new ∧ s0.air = [] := by cases h <;> exact ⟨rfl, rfl⟩

theorem gotL_of {s : Subs} {id : Nat} {c : Chan} (h : s.chans[id]? = some c) : s.gotL id = c.got := by rw [Subs.gotL, h]; rfl

theorem gotM_of {s : Subs} {id : Nat} {r : BRx} (h : s.brxs[id]? = some r) : s.gotM id = r.got := by rw [Subs.gotM, h]; rfl

/-- The exclusive subscription made before, as it is now. -/
theorem chan_now {cfg : Cfg} {ls1 ls2 : List Label} {c1 c2 c : Client} {key : Key} {id : Nat} {l : Label}
    (h1 : run cfg ls1 Client.new = some c1) (hs : Subscribes c1.subs key id l) (h2 : step cfg c1 l = some c2)
    (h3 : run cfg ls2 c2 = some c) : ∃ ch, c.subs.chans[id]? = some ch ∧ ch.key = key ∧ ch.since = c2.subs.arrived.length ∧
      run cfg (ls1 ++ l :: ls2) Client.new = some c ∧
      received cfg id (ls1 ++ l :: ls2) Client.new = received cfg id ls2 c2 ∧
      (received cfg id ls2 c2 ++ ch.queue).Sublist (topicPart key c2.subs.arrived.length c.subs.arrived) := by
  obtain ⟨ch0, a1, a2, a3, a4⟩ := subscribes_starts hs h2
  obtain ⟨ch, b1, b2, b3⟩ := chan_kept h3 a1
  have hrun : run cfg (ls1 ++ l :: ls2) Client.new = some c := by
    rw [run_append, h1, Option.bind_some, run, h2]; exact h3
  have g1 := run_gotL ls2 c2 c h3 id
  have g2 := run_gotL _ Client.new c hrun id
  have h0 : Client.new.subs.gotL id = [] := by simp [Client.new, Subs.new, Subs.gotL]
  rw [gotL_of b1, gotL_of a1, a4, List.nil_append] at g1
  rw [gotL_of b1, h0, List.nil_append] at g2
  have he : received cfg id (ls1 ++ l :: ls2) Client.new = received cfg id ls2 c2 := g2.symm.trans g1
  refine ⟨ch, b1, b2.trans a2, b3.trans a3, hrun, he, ?_⟩
  have := c40_delivery_order hrun b1
  rw [he, b2, b3, a2, a3] at this
  exact this

/-- The multi-subscription made before, as it is now. -/
theorem brx_now {cfg : Cfg} {ls1 ls2 : List Label} {c1 c2 c : Client} {key : Key} {id : Nat} {l : Label}
    (h1 : run cfg ls1 Client.new = some c1) (hs : SubscribesMulti c1.subs key id l) (h2 : step cfg c1 l = some c2)
    (h3 : run cfg ls2 c2 = some c) : ∃ r, c.subs.brxs[id]? = some r ∧ r.key = key ∧ r.since = c2.subs.arrived.length ∧
      run cfg (ls1 ++ l :: ls2) Client.new = some c ∧
      receivedMulti cfg id (ls1 ++ l :: ls2) Client.new = receivedMulti cfg id ls2 c2 ∧
      (receivedMulti cfg id ls2 c2 ++ r.pending).Sublist (topicPart key c2.subs.arrived.length c.subs.arrived) := by
  obtain ⟨ch0, a1, a2, a3, a4⟩ := subscribesMulti_starts hs h2
  obtain ⟨ch, b1, b2, b3⟩ := brx_kept h3 a1
  have hrun : run cfg (ls1 ++ l :: ls2) Client.new = some c := by
    rw [run_append, h1, Option.bind_some, run, h2]; exact h3
  have g1 := run_gotM ls2 c2 c h3 id
  have g2 := run_gotM _ Client.new c hrun id
  have h0 : Client.new.subs.gotM id = [] := by simp [Client.new, Subs.new, Subs.gotM]
  rw [gotM_of b1, gotM_of a1, a4, List.nil_append] at g1
  rw [gotM_of b1, h0, List.nil_append] at g2
  have he : receivedMulti cfg id (ls1 ++ l :: ls2) Client.new = receivedMulti cfg id ls2 c2 := g2.symm.trans g1
  refine ⟨ch, b1, b2.trans a2, b3.trans a3, hrun, he, ?_⟩
  have := c40_multi_delivery_order hrun b1
  rw [he, b2, b3, a2, a3] at this
  exact this

theorem subscribes_sub {s : Subs} {key : Key} {id : Nat} {l : Label} (h : Subscribes s key id l) :
    ∃ k d, l = .sub_repl k d ∨ l = .sub_excl k d ∨ l = .sub_multi k d := by
  cases l with
  | sub_repl k d => exact ⟨k, d, .inl rfl⟩
  | sub_excl k d => exact ⟨k, d, .inr (.inl rfl)⟩
  | _ => exact h.elim

theorem subscribesMulti_sub {s : Subs} {key : Key} {id : Nat} {l : Label} (h : SubscribesMulti s key id l) :
    ∃ k d, l = .sub_repl k d ∨ l = .sub_excl k d ∨ l = .sub_multi k d := by
  cases l with
  | sub_multi k d => exact ⟨k, d, .inr (.inr rfl)⟩
  | _ => exact h.elim

theorem clientSteps_at (ls1 : List (SLabel V)) (l : Label) (ls2 : List (SLabel V)) :
    clientSteps (ls1 ++ .client l :: ls2) = clientSteps ls1 ++ l :: clientSteps ls2 := clientSteps_append ..

/-- As `topic_core`, for a subscribing step. -/
theorem topic_sub {a : App V E SC Ctx} {S : SysCfg V E SC Ctx} {key : Key} (x : TopicCtx a S key) {es : List (Sys V E SC Ctx)}
    {s0 s1 s2 s : Sys V E SC Ctx} {ls1 ls2 : List (SLabel V)} {l : Label} (hs : Sessions a S es s0) (h1 : sys_run S ls1 s0 = some s1)
    (h2 : sys_step S s1 (.client l) = some s2) (h3 : sys_run S ls2 s2 = some s) (hu : ∀ k ∈ ls1 ++ .client l :: ls2, Used a k)
    (hl : ∃ k d, l = .sub_repl k d ∨ l = .sub_excl k d ∨ l = .sub_multi k d) :
    SysInv a S s ∧ (∃ z, Watch S s z) ∧ step S.cfg s1.client l = some s2.client ∧
    run S.cfg (clientSteps ls1) Client.new = some s1.client ∧ run S.cfg (clientSteps ls2) s2.client = some s.client ∧
    ∃ late zs, StillComing s1 (publications S key ls1 s0) late ∧
      Heard S key s2 s (publications S key ls1 s0) late (publications S key ls2 s2) zs := by
  have hst := sessions_start hs
  have hn := sessions_new hs
  obtain ⟨k1, _, k3⟩ := subscribing_still hl h2
  have hr : sys_run S (ls1 ++ [.client l]) s0 = some s2 := by
    rw [sys_run_append h1]; simp only [sys_run, h2]
  obtain ⟨c1, c2, late, zs, H⟩ := topic_core x hst.inv hst.quiet hn hr
    (fun k hk => hu k (by simp only [List.mem_append, List.mem_cons] at hk ⊢; exact hk.imp_right (.imp_right fun h => nomatch h))) h3
    (fun k hk => hu k (List.mem_append_right _ (List.mem_cons_of_mem _ hk)))
  have hp : publications S key (ls1 ++ [.client l]) s0 = publications S key ls1 s0 := by
    rw [publications_append h1]
    simp only [publications, h2, List.append_nil]
  rw [hp] at H
  have hc1 := client_run h1
  rw [hn.1] at hc1
  exact ⟨c1, c2, k1, hc1, client_run h3, late, zs, ⟨H.before, fun hq => H.quiet (k3 hq)⟩, H⟩

/-- C94 (order): what an exclusive subscription of a topic has received or queued are, in order and each once, messages published on the
topic: those published since it was made, after the last of those from before that were still on their way then.  They are exactly the
published ones, and published successfully, if a send that fails leaves nothing on the link; in any case this is so for the values the
receiver's decoder makes of them. -/
theorem c94_order (a : App V E SC Ctx) (S : SysCfg V E SC Ctx) (hD : define_dispatch a = .ok S.disp) (hdecl : Declared a S.kkind)
    (hapart : KeysApart a S) {key : Key} (ht : AppTopic a S.kkind key)
    (hdist : short (keyLen S.kkind) key ≠ short (keyLen S.kkind) a.std.error)
    {es : List (Sys V E SC Ctx)} {s0 s1 s2 s : Sys V E SC Ctx} {ls1 ls2 : List (SLabel V)} {l : Label} (hs : Sessions a S es s0)
    (h1 : sys_run S ls1 s0 = some s1) (h2 : sys_step S s1 (.client l) = some s2) (h3 : sys_run S ls2 s2 = some s)
    (hu : ∀ k ∈ ls1 ++ .client l :: ls2, Used a k) {id : Nat} (hsub : Subscribes s1.client.subs key id l) :
    ∃ late c, StillComing s1 (publications S key ls1 s0) late ∧ s.client.subs.chans[id]? = some c ∧
      SomeOf S (received S.cfg id (clientSteps ls2) s2.client ++ c.queue) (late ++ publications S key ls2 s2) := by
  have x := topicCtx_of hD hdecl hapart ht hdist
  obtain ⟨inv, _, k1, k2, k3, late, zs, hlate, H⟩ := topic_sub x hs h1 h2 h3 hu (subscribes_sub hsub)
  obtain ⟨c, b1, _, _, _, _, b6⟩ := chan_now k2 hsub k1 k3
  exact ⟨late, c, hlate, b1, heard_order x inv H b6⟩

/-- C94 (order), multi-subscriptions. -/
theorem c94_order_multi (a : App V E SC Ctx) (S : SysCfg V E SC Ctx) (hD : define_dispatch a = .ok S.disp) (hdecl : Declared a S.kkind)
    (hapart : KeysApart a S) {key : Key} (ht : AppTopic a S.kkind key)
    (hdist : short (keyLen S.kkind) key ≠ short (keyLen S.kkind) a.std.error)
    {es : List (Sys V E SC Ctx)} {s0 s1 s2 s : Sys V E SC Ctx} {ls1 ls2 : List (SLabel V)} {l : Label} (hs : Sessions a S es s0)
    (h1 : sys_run S ls1 s0 = some s1) (h2 : sys_step S s1 (.client l) = some s2) (h3 : sys_run S ls2 s2 = some s)
    (hu : ∀ k ∈ ls1 ++ .client l :: ls2, Used a k) {id : Nat} (hsub : SubscribesMulti s1.client.subs key id l) :
    ∃ late r, StillComing s1 (publications S key ls1 s0) late ∧ s.client.subs.brxs[id]? = some r ∧
      SomeOf S (receivedMulti S.cfg id (clientSteps ls2) s2.client ++ r.pending) (late ++ publications S key ls2 s2) := by
  have x := topicCtx_of hD hdecl hapart ht hdist
  obtain ⟨inv, _, k1, k2, k3, late, zs, hlate, H⟩ := topic_sub x hs h1 h2 h3 hu (subscribesMulti_sub hsub)
  obtain ⟨r, b1, _, _, _, _, b6⟩ := brx_now k2 hsub k1 k3
  exact ⟨late, r, hlate, b1, heard_order x inv H b6⟩

theorem noShared_of {a : App V E SC Ctx} {S : SysCfg V E SC Ctx} {key : Key} (x : TopicCtx a S key) {s : Sys V E SC Ctx}
    (inv : SysInv a S s) (w : ∃ z, Watch S s z) {ls : List Label} (hl : ∀ k ∈ ls, ToDeclared a k)
    (hrun : run S.cfg ls Client.new = some s.client) : NoShared s.client ∧ NoSharedMulti s.client := by
  obtain ⟨z, w⟩ := w
  obtain ⟨d1, d2⟩ := subs_declared hl hrun ⟨(fun c hc => nomatch hc), (fun r hr => nomatch hr)⟩
  exact ⟨fun f hf c1 h1 c2 h2 t1 t2 => arrived_apart x inv w hf (d1 c1 h1) (d1 c2 h2) t1 t2,
    fun f hf r1 h1 r2 h2 t1 t2 => arrived_apart x inv w hf (d2 r1 h1) (d2 r2 h2) t1 t2⟩

/-- C94 (completeness): once all that was sent has been handed on, none of the messages published successfully since the subscription was
made is missing from what it has received, has queued or waits for room for, if it was not dropped or replaced, no message was thrown
away because its queue was full, and all the client's subscriptions are to declared topics. -/
theorem c94_complete (a : App V E SC Ctx) (S : SysCfg V E SC Ctx) (hD : define_dispatch a = .ok S.disp) (hdecl : Declared a S.kkind)
    (hapart : KeysApart a S) {key : Key} (ht : AppTopic a S.kkind key)
    (hdist : short (keyLen S.kkind) key ≠ short (keyLen S.kkind) a.std.error)
    {es : List (Sys V E SC Ctx)} {s0 s1 s2 s : Sys V E SC Ctx} {ls1 ls2 : List (SLabel V)} {l : Label} (hs : Sessions a S es s0)
    (h1 : sys_run S ls1 s0 = some s1) (h2 : sys_step S s1 (.client l) = some s2) (h3 : sys_run S ls2 s2 = some s)
    (hu : ∀ k ∈ ls1 ++ .client l :: ls2, Used a k) (hl : ∀ k ∈ clientSteps (ls1 ++ .client l :: ls2), ToDeclared a k) {id : Nat}
    (hsub : Subscribes s1.client.subs key id l) {c : Chan} (hund : Undisturbed s.client id c) (hdrop : c.dropped = false) (hq : CaughtUp s) :
    ∃ late, StillComing s1 (publications S key ls1 s0) late ∧
      SomeOf S (received S.cfg id (clientSteps ls2) s2.client ++ c.queue ++ waitingFor s.client id) (late ++ publications S key ls2 s2) ∧
      AllOf S (received S.cfg id (clientSteps ls2) s2.client ++ c.queue ++ waitingFor s.client id) (late ++ publications S key ls2 s2) := by
  have x := topicCtx_of hD hdecl hapart ht hdist
  obtain ⟨inv, w, k1, k2, k3, late, zs, hlate, H⟩ := topic_sub x hs h1 h2 h3 hu (subscribes_sub hsub)
  obtain ⟨c', b1, b2, b3, b4, b5, _⟩ := chan_now k2 hsub k1 k3
  have hc : c' = c := Option.some.inj (b1.symm.trans hund.here)
  subst hc
  rw [clientSteps_at] at hl
  have e := c40_all_delivered_partial b4 hund hdrop (noShared_of x inv w hl b4).1
  rw [b5, b2, b3] at e
  rw [e]
  exact ⟨late, hlate, heard_order x inv H (List.Sublist.refl _), heard_all x inv H hq⟩

/-- C94 (completeness), multi-subscriptions: received, pending and lost messages together are as many as were published successfully; none is
missing if none was lost. -/
theorem c94_complete_multi (a : App V E SC Ctx) (S : SysCfg V E SC Ctx) (hD : define_dispatch a = .ok S.disp) (hdecl : Declared a S.kkind)
    (hapart : KeysApart a S) {key : Key} (ht : AppTopic a S.kkind key)
    (hdist : short (keyLen S.kkind) key ≠ short (keyLen S.kkind) a.std.error)
    {es : List (Sys V E SC Ctx)} {s0 s1 s2 s : Sys V E SC Ctx} {ls1 ls2 : List (SLabel V)} {l : Label} (hs : Sessions a S es s0)
    (h1 : sys_run S ls1 s0 = some s1) (h2 : sys_step S s1 (.client l) = some s2) (h3 : sys_run S ls2 s2 = some s)
    (hu : ∀ k ∈ ls1 ++ .client l :: ls2, Used a k) (hl : ∀ k ∈ clientSteps (ls1 ++ .client l :: ls2), ToDeclared a k) {id : Nat}
    (hsub : SubscribesMulti s1.client.subs key id l) {r : BRx} (hr : s.client.subs.brxs[id]? = some r) (hal : r.alive = true)
    (hq : CaughtUp s) :
    ∃ late, StillComing s1 (publications S key ls1 s0) late ∧
      SomeOf S (receivedMulti S.cfg id (clientSteps ls2) s2.client ++ r.pending) (late ++ publications S key ls2 s2) ∧
      (r.lost = 0 →
        AllOf S (receivedMulti S.cfg id (clientSteps ls2) s2.client ++ r.pending) (late ++ publications S key ls2 s2)) ∧
      (Clean S → (receivedMulti S.cfg id (clientSteps ls2) s2.client ++ r.pending).length + r.lost =
        (succeeded (late ++ publications S key ls2 s2)).length) := by
  have x := topicCtx_of hD hdecl hapart ht hdist
  obtain ⟨inv, w, k1, k2, k3, late, zs, hlate, H⟩ := topic_sub x hs h1 h2 h3 hu (subscribesMulti_sub hsub)
  obtain ⟨r', b1, b2, b3, b4, b5, b6⟩ := brx_now k2 hsub k1 k3
  have hc : r' = r := Option.some.inj (b1.symm.trans hr)
  subst hc
  rw [clientSteps_at] at hl
  obtain ⟨e1, e2⟩ := c40_multi_all_accounted_partial b4 hr hal (noShared_of x inv w hl b4).2
  rw [b5, b2, b3] at e1 e2
  have hall := heard_all x inv H hq
  refine ⟨late, hlate, heard_order x inv H b6, fun h0 => by rw [e2 h0]; exact hall, fun hclean => ?_⟩
  have h := congrArg List.length (hall.1 hclean)
  rw [List.length_map, List.length_map] at h
  rw [← h, ← e1, List.length_append]

/-! ### Over a USB cable -/

theorem usbClientSteps_at (ls1 : List (ULabel V)) (l : Label) (ls2 : List (ULabel V)) :
    usbClientSteps (ls1 ++ .client l :: ls2) = usbClientSteps ls1 ++ l :: usbClientSteps ls2 := usbClientSteps_append ..

/-- As `topic_sub`. -/
theorem usb_topic_sub {a : App V E SC Ctx} {U : UsbCfg V E SC Ctx} {key : Key} (x : TopicCtx a U.S key) (hU : UsbSound U)
    {es : List (UsbSys V E SC Ctx)} {u0 : UsbSys V E SC Ctx} (h0 : UsbSessions a U DevIdle es u0) {u1 u2 u : UsbSys V E SC Ctx} {ls1 ls2 : List (ULabel V)} {l : Label} (h1 : u_run U ls1 u0 = some u1)
    (h2 : u_step U u1 (.client l) = some u2) (h3 : u_run U ls2 u2 = some u) (hu : ∀ k ∈ ls1 ++ .client l :: ls2, UsbUsed a k)
    (hsm : Small U.S u.sys) (hl : ∃ k d, l = .sub_repl k d ∨ l = .sub_excl k d ∨ l = .sub_multi k d) :
    SysInv a U.S u.abs ∧ (∃ z, Watch U.S u.abs z) ∧ step U.S.cfg u1.sys.client l = some u2.sys.client ∧
    run U.S.cfg (usbClientSteps ls1) Client.new = some u1.sys.client ∧ run U.S.cfg (usbClientSteps ls2) u2.sys.client = some u.sys.client ∧
    ∃ late zs, UsbStillComing u1 (usbPublications U key ls1 u0) late ∧
      Heard U.S key u2.abs u.abs (usbPublications U key ls1 u0) late (usbPublications U key ls2 u2) zs := by
  have hr : u_run U (ls1 ++ [.client l]) u0 = some u2 := u_run_append h1 (by simp only [u_run, h2])
  obtain ⟨i0, hs⟩ := usb_sessions hU h0
  have hsm2 : Small U.S u2.sys := small_before hsm (u_run_grows h3).1
  obtain ⟨i1, ks1, r1, st1, p1⟩ := sim_publications hU.buffer hU.some_buffer key i0 hsm2 hr
  obtain ⟨_, ks2, r2, st2, p2⟩ := sim_publications hU.buffer hU.some_buffer key i1 hsm h3
  have used : ∀ {ks : List (SLabel V)} {ls : List (ULabel V)}, (∀ l' ∈ ks, ∃ l ∈ ls, Stands l l') → (∀ l ∈ ls, UsbUsed a l) →
      ∀ k ∈ ks, Used a k := fun h h' k hk => by
    obtain ⟨m, hm, hst⟩ := h k hk
    exact stands_used hst (h' m hm)
  obtain ⟨c1, c2, late, zs, H⟩ := topic_core x (sessions_start hs).inv (sessions_start hs).quiet (sessions_new hs) (s0 := u0.abs) r1
    (used st1 fun k hk => hu k (by simp only [List.mem_append, List.mem_cons] at hk ⊢; exact hk.imp_right (.imp_right fun h => nomatch h)))
    r2 (used st2 fun k hk => hu k (List.mem_append_right _ (List.mem_cons_of_mem _ hk)))
  have hp : usbPublications U key (ls1 ++ [.client l]) u0 = usbPublications U key ls1 u0 := by
    rw [usbPublications_append h1]
    simp only [usbPublications, h2, List.append_nil]
  rw [p1, p2, hp] at H
  have hk : step U.S.cfg u1.sys.client l = some u2.sys.client := by
    rcases u_step_client h2 with ⟨k, e, h⟩ | ⟨h, _⟩
    · cases e; exact h
    · exact absurd rfl (h l)
  have hstill : UsbCaughtUp u1 → UsbCaughtUp u2 := by
    obtain ⟨t, hs, hcase⟩ := u_client_cases h2
    have ht : sys_step U.S u1.sys (.client l) = some t := hs
    have hsame : t.air = u1.sys.air ∧ t.client.in_pc = u1.sys.client.in_pc := by
      obtain ⟨c, hc, ⟨b, air, e, _⟩ | ⟨_, rfl⟩⟩ := client_step_cases hs
      · obtain ⟨k, d, rfl | rfl | rfl⟩ := hl <;> cases e
      · refine ⟨rfl, ?_⟩
        obtain ⟨k, d, rfl | rfl | rfl⟩ := hl
        all_goals
          simp only [step] at hc
          split at hc
          · injection hc with hc; rw [← hc]
          · cases hc
    intro hq
    rcases hcase with ⟨_, rfl⟩ | ⟨_, _, rfl⟩
    · exact ⟨by show ∀ b ∈ t.air, _; rw [hsame.1]; exact hq.air, hq.cable, by show ∀ f, t.client.in_pc ≠ _; rw [hsame.2]; exact hq.looked,
        by show t.client.in_pc ≠ _ ∧ t.client.in_pc ≠ _; rw [hsame.2]; exact hq.running⟩
    · exact ⟨by show ∀ b ∈ t.air, _; rw [hsame.1]; exact hq.air, hq.cable, by show ∀ f, t.client.in_pc ≠ _; rw [hsame.2]; exact hq.looked,
        by show t.client.in_pc ≠ _ ∧ t.client.in_pc ≠ _; rw [hsame.2]; exact hq.running⟩
  have hc1 := usb_client_run h1
  have hc0 : u0.sys.client = Client.new := (sessions_new hs).1
  rw [hc0] at hc1
  exact ⟨c1, c2, hk, hc1, usb_client_run h3, late, zs, ⟨H.before, fun hq => H.quiet (usbCaughtUp_abs (hstill hq))⟩, H⟩

/-- C94 over a USB cable, packet by packet, for an exclusive subscription: order and completeness.  Sends of the server may fail at any
packet. -/
theorem c94_usb (a : App V E SC Ctx) (U : UsbCfg V E SC Ctx) (hU : UsbSound U) (hD : define_dispatch a = .ok U.S.disp)
    (hdecl : Declared a U.S.kkind) (hapart : KeysApart a U.S) {key : Key} (ht : AppTopic a U.S.kkind key)
    (hdist : short (keyLen U.S.kkind) key ≠ short (keyLen U.S.kkind) a.std.error)
    {es : List (UsbSys V E SC Ctx)} {u0 : UsbSys V E SC Ctx} (h0 : UsbSessions a U DevIdle es u0) {u1 u2 u : UsbSys V E SC Ctx}
    {ls1 ls2 : List (ULabel V)} {l : Label} (h1 : u_run U ls1 u0 = some u1) (h2 : u_step U u1 (.client l) = some u2)
    (h3 : u_run U ls2 u2 = some u) (hu : ∀ k ∈ ls1 ++ .client l :: ls2, UsbUsed a k) (hsm : Small U.S u.sys)
    {id : Nat} (hsub : Subscribes u1.sys.client.subs key id l) :
    ∃ late c, UsbStillComing u1 (usbPublications U key ls1 u0) late ∧ u.sys.client.subs.chans[id]? = some c ∧
      SomeOf U.S (received U.S.cfg id (usbClientSteps ls2) u2.sys.client ++ c.queue) (late ++ usbPublications U key ls2 u2) ∧
      ((∀ k ∈ usbClientSteps (ls1 ++ .client l :: ls2), ToDeclared a k) → Undisturbed u.sys.client id c → c.dropped = false →
        UsbCaughtUp u →
        AllOf U.S (received U.S.cfg id (usbClientSteps ls2) u2.sys.client ++ c.queue ++ waitingFor u.sys.client id)
          (late ++ usbPublications U key ls2 u2)) := by
  have x := topicCtx_of hD hdecl hapart ht hdist
  obtain ⟨inv, w, k1, k2, k3, late, zs, hlate, H⟩ := usb_topic_sub x hU h0 h1 h2 h3 hu hsm (subscribes_sub hsub)
  obtain ⟨c, b1, b2, b3, b4, b5, b6⟩ := chan_now k2 hsub k1 k3
  refine ⟨late, c, hlate, b1, heard_order x inv H b6, fun hl hund hdrop hq => ?_⟩
  rw [usbClientSteps_at] at hl
  have e := c40_all_delivered_partial b4 hund hdrop (noShared_of x inv w hl b4).1
  rw [b5, b2, b3] at e
  rw [e]
  have h := heard_all x inv H (usbCaughtUp_abs hq)
  exact h

theorem usb_multi_of {a : App V E SC Ctx} {U : UsbCfg V E SC Ctx} (hU : UsbSound U) {key : Key} (x : TopicCtx a U.S key)
    {es : List (UsbSys V E SC Ctx)} {u0 : UsbSys V E SC Ctx} (h0 : UsbSessions a U DevIdle es u0) {u1 u2 u : UsbSys V E SC Ctx} {ls1 ls2 : List (ULabel V)} {l : Label} (h1 : u_run U ls1 u0 = some u1)
    (h2 : u_step U u1 (.client l) = some u2) (h3 : u_run U ls2 u2 = some u) (hu : ∀ k ∈ ls1 ++ .client l :: ls2, UsbUsed a k)
    (hsm : Small U.S u.sys) {id : Nat} (hsub : SubscribesMulti u1.sys.client.subs key id l) :
    ∃ late r, UsbStillComing u1 (usbPublications U key ls1 u0) late ∧ u.sys.client.subs.brxs[id]? = some r ∧
      SomeOf U.S (receivedMulti U.S.cfg id (usbClientSteps ls2) u2.sys.client ++ r.pending) (late ++ usbPublications U key ls2 u2) ∧
      ((∀ k ∈ usbClientSteps (ls1 ++ .client l :: ls2), ToDeclared a k) → NoSharedMulti u.sys.client ∧ (r.alive = true → r.lost = 0 →
        UsbCaughtUp u →
        AllOf U.S (receivedMulti U.S.cfg id (usbClientSteps ls2) u2.sys.client ++ r.pending) (late ++ usbPublications U key ls2 u2))) := by
  obtain ⟨inv, w, k1, k2, k3, late, zs, hlate, H⟩ := usb_topic_sub x hU h0 h1 h2 h3 hu hsm (subscribesMulti_sub hsub)
  obtain ⟨r, b1, b2, b3, b4, b5, b6⟩ := brx_now k2 hsub k1 k3
  refine ⟨late, r, hlate, b1, heard_order x inv H b6, fun hl => ?_⟩
  rw [usbClientSteps_at] at hl
  have hns := (noShared_of x inv w hl b4).2
  refine ⟨hns, fun hal hlost hq => ?_⟩
  have e := (c40_multi_all_accounted_partial b4 b1 hal hns).2 hlost
  rw [b5, b2, b3] at e
  rw [e]
  have h := heard_all x inv H (usbCaughtUp_abs hq)
  exact h

/-- C94 over a USB cable, multi-subscriptions. -/
theorem c94_usb_multi (a : App V E SC Ctx) (U : UsbCfg V E SC Ctx) (hU : UsbSound U) (hD : define_dispatch a = .ok U.S.disp)
    (hdecl : Declared a U.S.kkind) (hapart : KeysApart a U.S) {key : Key} (ht : AppTopic a U.S.kkind key)
    (hdist : short (keyLen U.S.kkind) key ≠ short (keyLen U.S.kkind) a.std.error)
    {es : List (UsbSys V E SC Ctx)} {u0 : UsbSys V E SC Ctx} (h0 : UsbSessions a U DevIdle es u0) {u1 u2 u : UsbSys V E SC Ctx}
    {ls1 ls2 : List (ULabel V)} {l : Label} (h1 : u_run U ls1 u0 = some u1) (h2 : u_step U u1 (.client l) = some u2)
    (h3 : u_run U ls2 u2 = some u) (hu : ∀ k ∈ ls1 ++ .client l :: ls2, UsbUsed a k) (hsm : Small U.S u.sys)
    {id : Nat} (hsub : SubscribesMulti u1.sys.client.subs key id l) :
    ∃ late r, UsbStillComing u1 (usbPublications U key ls1 u0) late ∧ u.sys.client.subs.brxs[id]? = some r ∧
      SomeOf U.S (receivedMulti U.S.cfg id (usbClientSteps ls2) u2.sys.client ++ r.pending) (late ++ usbPublications U key ls2 u2) ∧
      ((∀ k ∈ usbClientSteps (ls1 ++ .client l :: ls2), ToDeclared a k) → r.alive = true → r.lost = 0 → UsbCaughtUp u →
        AllOf U.S (receivedMulti U.S.cfg id (usbClientSteps ls2) u2.sys.client ++ r.pending) (late ++ usbPublications U key ls2 u2)) := by
  obtain ⟨late, r, h1, h2, h3, h4⟩ := usb_multi_of hU (topicCtx_of hD hdecl hapart ht hdist) h0 h1 h2 h3 hu hsm hsub
  exact ⟨late, r, h1, h2, h3, fun hl => (h4 hl).2⟩

/-! ### Example runs -/

/-- The client takes the frame `b` from the link and hands it to the subscriptions. -/
def topicRecv (b : Bytes) : List Label := [.in_recv (some b), .in_lookup]

/-- A message is published; the client has not yet received it. -/
def exTopicBefore : List (SLabel Nat) := [.client .in_poll, .app_publish (exKey 0x91#8) (.Seq1 1) 11]

/-- Then two more are, and one of another topic in between.  The client receives all of them, the subscriber two. -/
def exTopicAfter (r : Label) : List (SLabel Nat) :=
  [.app_publish (exKey 0x91#8) (.Seq2 2) 12, .app_publish (exKey 0x95#8) (.Seq1 3) 13, .app_publish (exKey 0x91#8) (.Seq1 4) 14] ++
  (topicRecv [0x00, 0x91, 1, 11] ++ topicRecv [0x10, 0x91, 2, 0, 12] ++ topicRecv [0x00, 0x95, 3, 13] ++ [Label.in_wake none] ++
    topicRecv [0x00, 0x91, 4, 14] ++ [r, r]).map .client

def exTopicFrame (n : VarSeq) (v : Byte) : RpcFrame := ⟨⟨.Key1 ⟨0x91#8⟩, n⟩, [v]⟩

theorem exSys_appTopic : AppTopic exSysApp exSys.kkind (exKey 0x91#8) where
  listed := ⟨⟨[], exKey 0x91#8⟩, by decide, rfl⟩
  schemas := by decide
  handlers := by
    intro t ht g hg c hdr v fr hm
    simp only [exSysApp, exApp, List.mem_cons, List.not_mem_nil, or_false] at ht
    rcases ht with rfl | rfl
    · cases hg
    · cases hg
      cases hm with
      | now => show keyBytes (.Key1 ⟨149#8⟩) ≠ _; decide
      | later _ _ _ _ h => cases h

instance decToDeclared {a : App V E SC Ctx} (l : Label) : Decidable (ToDeclared a l) := by cases l <;> (unfold ToDeclared; infer_instance)

instance (s : Subs) (key : Key) (id : Nat) (l : Label) : Decidable (Subscribes s key id l) := by
  cases l <;> (unfold Subscribes; infer_instance)

instance (s : Subs) (key : Key) (id : Nat) (l : Label) : Decidable (SubscribesMulti s key id l) := by
  cases l <;> (unfold SubscribesMulti; infer_instance)

set_option synthInstance.maxSize 1000 in
/-- The theorems on exclusive subscriptions apply to the run. -/
example : define_dispatch exSysApp = .ok exSys.disp ∧ Declared exSysApp exSys.kkind ∧ KeysApart exSysApp exSys ∧
    AppTopic exSysApp exSys.kkind (exKey 0x91#8) ∧ short (keyLen exSys.kkind) (exKey 0x91#8) ≠ short (keyLen exSys.kkind) exSysApp.std.error ∧
    Sessions exSysApp exSys [] (Sys.new 0) ∧
    (∀ k ∈ exTopicBefore ++ .client (.sub_repl (exKey 0x91#8) 4) :: exTopicAfter (.recv_excl 0), Used exSysApp k) ∧
    (∀ k ∈ clientSteps (exTopicBefore ++ .client (.sub_repl (exKey 0x91#8) 4) :: exTopicAfter (.recv_excl 0)), ToDeclared exSysApp k) ∧
    ∃ s1 s2 s, sys_run exSys exTopicBefore (Sys.new 0) = some s1 ∧ sys_step exSys s1 (.client (.sub_repl (exKey 0x91#8) 4)) = some s2 ∧
      sys_run exSys (exTopicAfter (.recv_excl 0)) s2 = some s ∧ Subscribes s1.client.subs (exKey 0x91#8) 0 (.sub_repl (exKey 0x91#8) 4) ∧
      ∃ c, Undisturbed s.client 0 c ∧ c.dropped = false ∧ CaughtUp s := by
  refine ⟨exSysApp_ok, exSysApp_declared, exSysApp_apart, exSys_appTopic, by decide, .first 0, by decide, by decide, ?_⟩
  have h1 : ((sys_run exSys exTopicBefore (Sys.new 0)).bind fun s1 =>
      (sys_step exSys s1 (.client (.sub_repl (exKey 0x91#8) 4))).bind fun s2 =>
      (sys_run exSys (exTopicAfter (.recv_excl 0)) s2).map fun s =>
        (decide (Subscribes s1.client.subs (exKey 0x91#8) 0 (.sub_repl (exKey 0x91#8) 4)), s.air, s.client.in_pc, s.client.subs.chans)) =
      some (true, [], .recv, [⟨exKey 0x91#8, 4, [exTopicFrame (.Seq1 4) 14], true, 0,
        [exTopicFrame (.Seq1 1) 11, exTopicFrame (.Seq2 2) 12], false⟩]) := by decide +kernel
  obtain ⟨s1, e1, h1⟩ := Option.bind_eq_some_iff.mp h1
  obtain ⟨s2, e2, h1⟩ := Option.bind_eq_some_iff.mp h1
  obtain ⟨s, e3, h1⟩ := Option.map_eq_some_iff.mp h1
  simp only [Prod.mk.injEq, decide_eq_true_eq] at h1
  obtain ⟨g1, g2, g3, g4⟩ := h1
  refine ⟨s1, s2, s, e1, e2, e3, g1, _, ⟨by rw [g4]; rfl, rfl, fun j cj hj hc => ?_, by rw [g3]; exact ⟨by simp, by simp⟩⟩, rfl,
    g2, by rw [g3]; simp, by rw [g3]; exact ⟨by simp, by simp⟩⟩
  rw [g4] at hc
  rw [List.getElem?_eq_none (by simpa using Nat.succ_le_of_lt hj)] at hc
  cases hc

set_option synthInstance.maxSize 1000 in
/-- The theorems on multi-subscriptions do. -/
example : (∀ k ∈ exTopicBefore ++ .client (.sub_multi (exKey 0x91#8) 4) :: exTopicAfter (.recv_multi 0), Used exSysApp k) ∧
    (∀ k ∈ clientSteps (exTopicBefore ++ .client (.sub_multi (exKey 0x91#8) 4) :: exTopicAfter (.recv_multi 0)), ToDeclared exSysApp k) ∧
    ∃ s1 s2 s, sys_run exSys exTopicBefore (Sys.new 0) = some s1 ∧ sys_step exSys s1 (.client (.sub_multi (exKey 0x91#8) 4)) = some s2 ∧
      sys_run exSys (exTopicAfter (.recv_multi 0)) s2 = some s ∧
      SubscribesMulti s1.client.subs (exKey 0x91#8) 0 (.sub_multi (exKey 0x91#8) 4) ∧
      ∃ r, s.client.subs.brxs[0]? = some r ∧ r.alive = true ∧ r.lost = 0 ∧ CaughtUp s := by
  refine ⟨by decide, by decide, ?_⟩
  have h1 : ((sys_run exSys exTopicBefore (Sys.new 0)).bind fun s1 =>
      (sys_step exSys s1 (.client (.sub_multi (exKey 0x91#8) 4))).bind fun s2 =>
      (sys_run exSys (exTopicAfter (.recv_multi 0)) s2).map fun s =>
        (decide (SubscribesMulti s1.client.subs (exKey 0x91#8) 0 (.sub_multi (exKey 0x91#8) 4)), s.air, s.client.in_pc,
          s.client.subs.brxs[0]?.map fun r => (r.alive, r.lost, r.got.length, r.pending.length))) =
      some (true, [], .recv, some (true, 0, 2, 1)) := by decide +kernel
  obtain ⟨s1, e1, h1⟩ := Option.bind_eq_some_iff.mp h1
  obtain ⟨s2, e2, h1⟩ := Option.bind_eq_some_iff.mp h1
  obtain ⟨s, e3, h1⟩ := Option.map_eq_some_iff.mp h1
  simp only [Prod.mk.injEq, decide_eq_true_eq] at h1
  obtain ⟨g1, g2, g3, g4⟩ := h1
  obtain ⟨r, g5, g6⟩ := Option.map_eq_some_iff.mp g4
  simp only [Prod.mk.injEq] at g6
  exact ⟨s1, s2, s, e1, e2, e3, g1, r, g5, g6.1, g6.2.1, g2, by rw [g3]; simp, by rw [g3]; exact ⟨by simp, by simp⟩⟩

set_option synthInstance.maxSize 1000 in
/-- C94: a message published before the subscription was made is received by it if it was still on its way. -/
theorem c94_published_before : (sys_run exSys exTopicBefore (Sys.new 0)).bind (fun s1 =>
      (sys_step exSys s1 (.client (.sub_repl (exKey 0x91#8) 4))).map fun s2 =>
        ((publications exSys (exKey 0x91#8) exTopicBefore (Sys.new 0)).map Publication.msg,
          (publications exSys (exKey 0x91#8) (exTopicAfter (.recv_excl 0)) s2).map Publication.msg,
          received exSys.cfg 0 (clientSteps (exTopicAfter (.recv_excl 0))) s2.client)) =
    some ([11], [12, 14], [exTopicFrame (.Seq1 1) 11, exTopicFrame (.Seq2 2) 12]) := by decide +kernel

/-- Over a USB cable: one message before the subscription, two after it.  Each takes two packets. -/
def exUsbTopicBefore : List (ULabel Nat) := [.client .in_poll, .app_publish (exKey 0x91#8) (.Seq1 1) 11, .dev_write .ok]

def exUsbTopicAfter (r : Label) : List (ULabel Nat) :=
  [.dev_write .ok, .app_publish (exKey 0x91#8) (.Seq2 2) 12, .dev_write .ok, .dev_write .ok] ++
  (topicRecv ([0x00, 0x91, 1] ++ List.replicate 70 11) ++ topicRecv ([0x10, 0x91, 2, 0] ++ List.replicate 70 12) ++ [r]).map .client

set_option synthInstance.maxSize 1000 in
example : UsbSound exUsb ∧ define_dispatch exSysApp = .ok exUsb.S.disp ∧ Declared exSysApp exUsb.S.kkind ∧ KeysApart exSysApp exUsb.S ∧
    AppTopic exSysApp exUsb.S.kkind (exKey 0x91#8) ∧
    (∀ k ∈ exUsbTopicBefore ++ .client (.sub_repl (exKey 0x91#8) 4) :: exUsbTopicAfter (.recv_excl 0), UsbUsed exSysApp k) ∧
    (∀ k ∈ usbClientSteps (exUsbTopicBefore ++ .client (.sub_repl (exKey 0x91#8) 4) :: exUsbTopicAfter (.recv_excl 0)), ToDeclared exSysApp k) ∧
    ∃ u1 u2 u, u_run exUsb exUsbTopicBefore (UsbSys.new 0) = some u1 ∧
      u_step exUsb u1 (.client (.sub_repl (exKey 0x91#8) 4)) = some u2 ∧
      u_run exUsb (exUsbTopicAfter (.recv_excl 0)) u2 = some u ∧ Small exUsb.S u.sys ∧
      Subscribes u1.sys.client.subs (exKey 0x91#8) 0 (.sub_repl (exKey 0x91#8) 4) ∧
      ∃ c, Undisturbed u.sys.client 0 c ∧ c.dropped = false ∧ c.got.length = 1 ∧ c.queue.length = 1 ∧ UsbCaughtUp u := by
  refine ⟨exUsb_sound, exSysApp_ok, exSysApp_declared, exSysApp_apart, exSys_appTopic, by decide, by decide, ?_⟩
  have h1 : ((u_run exUsb exUsbTopicBefore (UsbSys.new 0)).bind fun u1 =>
      (u_step exUsb u1 (.client (.sub_repl (exKey 0x91#8) 4))).bind fun u2 =>
      (u_run exUsb (exUsbTopicAfter (.recv_excl 0)) u2).map fun u =>
        (decide (Subscribes u1.sys.client.subs (exKey 0x91#8) 0 (.sub_repl (exKey 0x91#8) 4)), u.sys.air, u.sys.client.in_pc,
          u.sys.client.subs.chans, u.sending.isNone, u.cur)) =
      some (true, [], .recv, [⟨exKey 0x91#8, 4, [⟨⟨.Key1 ⟨0x91#8⟩, .Seq2 2⟩, List.replicate 70 12⟩], true, 0,
        [⟨⟨.Key1 ⟨0x91#8⟩, .Seq1 1⟩, List.replicate 70 11⟩], false⟩], true, []) := by decide +kernel
  obtain ⟨u1, e1, h1⟩ := Option.bind_eq_some_iff.mp h1
  obtain ⟨u2, e2, h1⟩ := Option.bind_eq_some_iff.mp h1
  obtain ⟨u, e3, h1⟩ := Option.map_eq_some_iff.mp h1
  simp only [Prod.mk.injEq, decide_eq_true_eq] at h1
  obtain ⟨g1, g2, g3, g4, g5, g6⟩ := h1
  refine ⟨u1, u2, u, e1, e2, e3, exUsb_small _, g1, _, ⟨by rw [g4]; rfl, rfl, fun j cj hj hc => ?_,
    by rw [g3]; exact ⟨by simp, by simp⟩⟩, rfl, rfl, rfl, by rw [g2]; simp, ⟨Option.isNone_iff_eq_none.mp g5, g6⟩, by rw [g3]; simp,
    by rw [g3]; exact ⟨by simp, by simp⟩⟩
  rw [g4] at hc
  rw [List.getElem?_eq_none (by simpa using Nat.succ_le_of_lt hj)] at hc
  cases hc

set_option synthInstance.maxSize 1000 in
example : (∀ k ∈ exUsbTopicBefore ++ .client (.sub_multi (exKey 0x91#8) 4) :: exUsbTopicAfter (.recv_multi 0), UsbUsed exSysApp k) ∧
    (∀ k ∈ usbClientSteps (exUsbTopicBefore ++ .client (.sub_multi (exKey 0x91#8) 4) :: exUsbTopicAfter (.recv_multi 0)), ToDeclared exSysApp k) ∧
    ∃ u1 u2 u, u_run exUsb exUsbTopicBefore (UsbSys.new 0) = some u1 ∧
      u_step exUsb u1 (.client (.sub_multi (exKey 0x91#8) 4)) = some u2 ∧
      u_run exUsb (exUsbTopicAfter (.recv_multi 0)) u2 = some u ∧
      SubscribesMulti u1.sys.client.subs (exKey 0x91#8) 0 (.sub_multi (exKey 0x91#8) 4) ∧
      ∃ r, u.sys.client.subs.brxs[0]? = some r ∧ r.alive = true ∧ r.lost = 0 ∧ UsbCaughtUp u := by
  refine ⟨by decide, by decide, ?_⟩
  have h1 : ((u_run exUsb exUsbTopicBefore (UsbSys.new 0)).bind fun u1 =>
      (u_step exUsb u1 (.client (.sub_multi (exKey 0x91#8) 4))).bind fun u2 =>
      (u_run exUsb (exUsbTopicAfter (.recv_multi 0)) u2).map fun u =>
        (decide (SubscribesMulti u1.sys.client.subs (exKey 0x91#8) 0 (.sub_multi (exKey 0x91#8) 4)), u.sys.air, u.sys.client.in_pc,
          u.sys.client.subs.brxs[0]?.map (fun r => (r.alive, r.lost, r.got.length, r.pending.length)), u.sending.isNone, u.cur)) =
      some (true, [], .recv, some (true, 0, 1, 1), true, []) := by decide +kernel
  obtain ⟨u1, e1, h1⟩ := Option.bind_eq_some_iff.mp h1
  obtain ⟨u2, e2, h1⟩ := Option.bind_eq_some_iff.mp h1
  obtain ⟨u, e3, h1⟩ := Option.map_eq_some_iff.mp h1
  simp only [Prod.mk.injEq, decide_eq_true_eq] at h1
  obtain ⟨g1, g2, g3, g4, g5, g6⟩ := h1
  obtain ⟨r, g7, g8⟩ := Option.map_eq_some_iff.mp g4
  simp only [Prod.mk.injEq] at g8
  exact ⟨u1, u2, u, e1, e2, e3, g1, r, g7, g8.1, g8.2.1, by rw [g2]; simp, ⟨Option.isNone_iff_eq_none.mp g5, g6⟩, by rw [g3]; simp,
    by rw [g3]; exact ⟨by simp, by simp⟩⟩

end PRpc.Props
