import Verif.Props.Topics
import Verif.Props.UsbNext
import Verif.Spec.NoGaps
/-! Publications and their subscribers, at any moment: C94. -/

namespace PRpc.Props

open Spec

variable {V E SC Ctx : Type}

theorem heard_no_gaps {a : App V E SC Ctx} {S : SysCfg V E SC Ctx} {key : Key} (x : TopicCtx a S key) {s1 s : Sys V E SC Ctx}
    {early late after : List (Publication V)} {zs : List (Out V × Option RpcFrame)} (inv : SysInv a S s)
    (H : Heard S key s1 s early late after zs) {fs : List RpcFrame}
    (hfs : fs <+: topicPart key s1.client.subs.arrived.length s.client.subs.arrived) : NoGaps S fs (late ++ after) := by
  obtain ⟨t, ht⟩ := hfs.trans H.part
  obtain ⟨za, zb, rfl, ga, gb⟩ := List.filterMap_eq_append_iff.mp ht.symm
  have hm : ∀ p ∈ za, p.1 ∈ s.outs := fun p hp => H.mem p (List.mem_append_left _ hp)
  have hf : ∀ p ∈ za, Fate S.enc p := fun p hp => H.fate p (List.mem_append_left _ hp)
  have hpre : (za.map (·.1)).filterMap (topicOut S.kkind key) <+: late ++ after := by
    refine List.IsPrefix.trans ?_ H.pubs
    rw [List.map_append, List.filterMap_append]
    exact List.prefix_append _ _
  refine ⟨_, hpre, ⟨fun hclean => ?_, fun M decode val hv => ?_⟩, ⟨fun hclean => ?_, fun M decode val hv => ?_⟩⟩
  · have hp := heard_pairs x hclean inv hm hf
    rw [ga] at hp
    exact ⟨_, List.Sublist.refl _, hp⟩
  · have hp := heard_values x (decode := decode) (val := val) inv hm hf hv
    rw [ga] at hp
    exact hp.1
  · have hp := heard_pairs x hclean inv hm hf
    rw [ga] at hp
    exact hp
  · have hp := heard_values x (decode := decode) (val := val) inv hm hf hv
    rw [ga] at hp
    exact hp.2

/-- C94 (no gaps): at every moment, whatever is still on its way, what an exclusive subscription has received, has queued or waits for
room for, and every first part of it (that is, what it had received at some time), are the first of the messages published since it was
made (after those from before that were still on their way), up to one of them, with none that succeeded missing in between; if it was not dropped or replaced and no message was thrown away because its queue
was full. -/
theorem c94_no_gaps (a : App V E SC Ctx) (S : SysCfg V E SC Ctx) (hD : define_dispatch a = .ok S.disp) (hdecl : Declared a S.kkind)
    (hapart : KeysApart a S) {key : Key} (ht : AppTopic a S.kkind key)
    (hdist : short (keyLen S.kkind) key ≠ short (keyLen S.kkind) a.std.error)
    {es : List (Sys V E SC Ctx)} {s0 s1 s2 s : Sys V E SC Ctx} {ls1 ls2 : List (SLabel V)} {l : Label} (hs : Sessions a S es s0)
    (h1 : sys_run S ls1 s0 = some s1) (h2 : sys_step S s1 (.client l) = some s2) (h3 : sys_run S ls2 s2 = some s)
    (hu : ∀ k ∈ ls1 ++ .client l :: ls2, Used a k) (hl : ∀ k ∈ clientSteps (ls1 ++ .client l :: ls2), ToDeclared a k) {id : Nat}
    (hsub : Subscribes s1.client.subs key id l) {c : Chan} (hund : Undisturbed s.client id c) (hdrop : c.dropped = false) :
    ∃ late, StillComing s1 (publications S key ls1 s0) late ∧
      ∀ fs, fs <+: received S.cfg id (clientSteps ls2) s2.client ++ c.queue ++ waitingFor s.client id →
        NoGaps S fs (late ++ publications S key ls2 s2) := by
  have x := topicCtx_of hD hdecl hapart ht hdist
  obtain ⟨inv, w, k1, k2, k3, late, zs, hlate, H⟩ := topic_sub x hs h1 h2 h3 hu (subscribes_sub hsub)
  obtain ⟨c', b1, b2, b3, b4, b5, _⟩ := chan_now k2 hsub k1 k3
  have hc : c' = c := Option.some.inj (b1.symm.trans hund.here)
  subst hc
  rw [clientSteps_at] at hl
  have e := c40_all_delivered_partial b4 hund hdrop (noShared_of x inv w hl b4).1
  rw [b5, b2, b3] at e
  rw [e]
  exact ⟨late, hlate, fun _ hfs => heard_no_gaps x inv H hfs⟩

/-- C94 (no gaps), multi-subscriptions that have lost nothing. -/
theorem c94_no_gaps_multi (a : App V E SC Ctx) (S : SysCfg V E SC Ctx) (hD : define_dispatch a = .ok S.disp) (hdecl : Declared a S.kkind)
    (hapart : KeysApart a S) {key : Key} (ht : AppTopic a S.kkind key)
    (hdist : short (keyLen S.kkind) key ≠ short (keyLen S.kkind) a.std.error)
    {es : List (Sys V E SC Ctx)} {s0 s1 s2 s : Sys V E SC Ctx} {ls1 ls2 : List (SLabel V)} {l : Label} (hs : Sessions a S es s0)
    (h1 : sys_run S ls1 s0 = some s1) (h2 : sys_step S s1 (.client l) = some s2) (h3 : sys_run S ls2 s2 = some s)
    (hu : ∀ k ∈ ls1 ++ .client l :: ls2, Used a k) (hl : ∀ k ∈ clientSteps (ls1 ++ .client l :: ls2), ToDeclared a k) {id : Nat}
    (hsub : SubscribesMulti s1.client.subs key id l) {r : BRx} (hr : s.client.subs.brxs[id]? = some r) (hal : r.alive = true)
    (hlost : r.lost = 0) :
    ∃ late, StillComing s1 (publications S key ls1 s0) late ∧
      ∀ fs, fs <+: receivedMulti S.cfg id (clientSteps ls2) s2.client ++ r.pending → NoGaps S fs (late ++ publications S key ls2 s2) := by
  have x := topicCtx_of hD hdecl hapart ht hdist
  obtain ⟨inv, w, k1, k2, k3, late, zs, hlate, H⟩ := topic_sub x hs h1 h2 h3 hu (subscribesMulti_sub hsub)
  obtain ⟨r', b1, b2, b3, b4, b5, b6⟩ := brx_now k2 hsub k1 k3
  have hc : r' = r := Option.some.inj (b1.symm.trans hr)
  subst hc
  rw [clientSteps_at] at hl
  have e := (c40_multi_all_accounted_partial b4 hr hal (noShared_of x inv w hl b4).2).2 hlost
  rw [b5, b2, b3] at e
  rw [e]
  exact ⟨late, hlate, fun _ hfs => heard_no_gaps x inv H hfs⟩

/-- The run of the examples for C94, and one more message, which is still on its way. -/
def exTopicMore (r : Label) : List (SLabel Nat) := exTopicAfter r ++ [.app_publish (exKey 0x91#8) (.Seq1 5) 15]

set_option synthInstance.maxSize 1000 in
example : (∀ k ∈ exTopicBefore ++ .client (.sub_repl (exKey 0x91#8) 4) :: exTopicMore (.recv_excl 0), Used exSysApp k) ∧
    (∀ k ∈ clientSteps (exTopicBefore ++ .client (.sub_repl (exKey 0x91#8) 4) :: exTopicMore (.recv_excl 0)), ToDeclared exSysApp k) ∧
    ∃ s1 s2 s, sys_run exSys exTopicBefore (Sys.new 0) = some s1 ∧ sys_step exSys s1 (.client (.sub_repl (exKey 0x91#8) 4)) = some s2 ∧
      sys_run exSys (exTopicMore (.recv_excl 0)) s2 = some s ∧ Subscribes s1.client.subs (exKey 0x91#8) 0 (.sub_repl (exKey 0x91#8) 4) ∧
      ∃ c, Undisturbed s.client 0 c ∧ c.dropped = false ∧ s.air.length = 1 := by
  refine ⟨by decide, by decide, ?_⟩
  have h1 : ((sys_run exSys exTopicBefore (Sys.new 0)).bind fun s1 =>
      (sys_step exSys s1 (.client (.sub_repl (exKey 0x91#8) 4))).bind fun s2 =>
      (sys_run exSys (exTopicMore (.recv_excl 0)) s2).map fun s =>
        (decide (Subscribes s1.client.subs (exKey 0x91#8) 0 (.sub_repl (exKey 0x91#8) 4)), s.air.length, s.client.in_pc, s.client.subs.chans)) =
      some (true, 1, .recv, [⟨exKey 0x91#8, 4, [exTopicFrame (.Seq1 4) 14], true, 0,
        [exTopicFrame (.Seq1 1) 11, exTopicFrame (.Seq2 2) 12], false⟩]) := by decide +kernel
  obtain ⟨s1, e1, h1⟩ := Option.bind_eq_some_iff.mp h1
  obtain ⟨s2, e2, h1⟩ := Option.bind_eq_some_iff.mp h1
  obtain ⟨s, e3, h1⟩ := Option.map_eq_some_iff.mp h1
  simp only [Prod.mk.injEq, decide_eq_true_eq] at h1
  obtain ⟨g1, g2, g3, g4⟩ := h1
  refine ⟨s1, s2, s, e1, e2, e3, g1, _, ⟨by rw [g4]; rfl, rfl, fun j cj hj hc => ?_, by rw [g3]; exact ⟨by simp, by simp⟩⟩, rfl, g2⟩
  rw [g4] at hc
  rw [List.getElem?_eq_none (by simpa using Nat.succ_le_of_lt hj)] at hc
  cases hc

set_option synthInstance.maxSize 1000 in
example : (∀ k ∈ exTopicBefore ++ .client (.sub_multi (exKey 0x91#8) 4) :: exTopicMore (.recv_multi 0), Used exSysApp k) ∧
    (∀ k ∈ clientSteps (exTopicBefore ++ .client (.sub_multi (exKey 0x91#8) 4) :: exTopicMore (.recv_multi 0)), ToDeclared exSysApp k) ∧
    ∃ s1 s2 s, sys_run exSys exTopicBefore (Sys.new 0) = some s1 ∧ sys_step exSys s1 (.client (.sub_multi (exKey 0x91#8) 4)) = some s2 ∧
      sys_run exSys (exTopicMore (.recv_multi 0)) s2 = some s ∧
      SubscribesMulti s1.client.subs (exKey 0x91#8) 0 (.sub_multi (exKey 0x91#8) 4) ∧
      ∃ r, s.client.subs.brxs[0]? = some r ∧ r.alive = true ∧ r.lost = 0 ∧ s.air.length = 1 := by
  refine ⟨by decide, by decide, ?_⟩
  have h1 : ((sys_run exSys exTopicBefore (Sys.new 0)).bind fun s1 =>
      (sys_step exSys s1 (.client (.sub_multi (exKey 0x91#8) 4))).bind fun s2 =>
      (sys_run exSys (exTopicMore (.recv_multi 0)) s2).map fun s =>
        (decide (SubscribesMulti s1.client.subs (exKey 0x91#8) 0 (.sub_multi (exKey 0x91#8) 4)), s.air.length,
          s.client.subs.brxs[0]?.map fun r => (r.alive, r.lost, r.got.length, r.pending.length))) =
      some (true, 1, some (true, 0, 2, 1)) := by decide +kernel
  obtain ⟨s1, e1, h1⟩ := Option.bind_eq_some_iff.mp h1
  obtain ⟨s2, e2, h1⟩ := Option.bind_eq_some_iff.mp h1
  obtain ⟨s, e3, h1⟩ := Option.map_eq_some_iff.mp h1
  simp only [Prod.mk.injEq, decide_eq_true_eq] at h1
  obtain ⟨g1, g2, g4⟩ := h1
  obtain ⟨r, g5, g6⟩ := Option.map_eq_some_iff.mp g4
  simp only [Prod.mk.injEq] at g6
  exact ⟨s1, s2, s, e1, e2, e3, g1, r, g5, g6.1, g6.2.1, g2⟩

/-! ### Over a USB cable -/

/-- C94 (no gaps) over a USB cable, packet by packet, for an exclusive subscription. -/
theorem c94_usb_no_gaps (a : App V E SC Ctx) (U : UsbCfg V E SC Ctx) (hU : UsbSound U) (hD : define_dispatch a = .ok U.S.disp)
    (hdecl : Declared a U.S.kkind) (hapart : KeysApart a U.S) {key : Key} (ht : AppTopic a U.S.kkind key)
    (hdist : short (keyLen U.S.kkind) key ≠ short (keyLen U.S.kkind) a.std.error)
    {es : List (UsbSys V E SC Ctx)} {u0 : UsbSys V E SC Ctx} (h0 : UsbSessions a U DevIdle es u0) {u1 u2 u : UsbSys V E SC Ctx}
    {ls1 ls2 : List (ULabel V)} {l : Label} (h1 : u_run U ls1 u0 = some u1) (h2 : u_step U u1 (.client l) = some u2)
    (h3 : u_run U ls2 u2 = some u) (hu : ∀ k ∈ ls1 ++ .client l :: ls2, UsbUsed a k) (hsm : Small U.S u.sys)
    (hl : ∀ k ∈ usbClientSteps (ls1 ++ .client l :: ls2), ToDeclared a k) {id : Nat} (hsub : Subscribes u1.sys.client.subs key id l)
    {c : Chan} (hund : Undisturbed u.sys.client id c) (hdrop : c.dropped = false) :
    ∃ late, UsbStillComing u1 (usbPublications U key ls1 u0) late ∧
      ∀ fs, fs <+: received U.S.cfg id (usbClientSteps ls2) u2.sys.client ++ c.queue ++ waitingFor u.sys.client id →
        NoGaps U.S fs (late ++ usbPublications U key ls2 u2) := by
  have x := topicCtx_of hD hdecl hapart ht hdist
  obtain ⟨inv, w, k1, k2, k3, late, zs, hlate, H⟩ := usb_topic_sub x hU h0 h1 h2 h3 hu hsm (subscribes_sub hsub)
  obtain ⟨c', b1, b2, b3, b4, b5, _⟩ := chan_now k2 hsub k1 k3
  have hc : c' = c := Option.some.inj (b1.symm.trans hund.here)
  subst hc
  rw [usbClientSteps_at] at hl
  have e := c40_all_delivered_partial b4 hund hdrop (noShared_of x inv w hl b4).1
  rw [b5, b2, b3] at e
  rw [e]
  exact ⟨late, hlate, fun _ hfs => heard_no_gaps (s1 := u2.abs) (s := u.abs) x inv H hfs⟩

theorem usb_no_gaps_of {a : App V E SC Ctx} {U : UsbCfg V E SC Ctx} (hU : UsbSound U) {key : Key} (x : TopicCtx a U.S key)
    {es : List (UsbSys V E SC Ctx)} {u0 : UsbSys V E SC Ctx} (h0 : UsbSessions a U DevIdle es u0) {u1 u2 u : UsbSys V E SC Ctx} {ls1 ls2 : List (ULabel V)} {l : Label} (h1 : u_run U ls1 u0 = some u1)
    (h2 : u_step U u1 (.client l) = some u2) (h3 : u_run U ls2 u2 = some u) (hu : ∀ k ∈ ls1 ++ .client l :: ls2, UsbUsed a k)
    (hsm : Small U.S u.sys) (hl : ∀ k ∈ usbClientSteps (ls1 ++ .client l :: ls2), ToDeclared a k) {id : Nat}
    (hsub : SubscribesMulti u1.sys.client.subs key id l) :
    ∃ late r, UsbStillComing u1 (usbPublications U key ls1 u0) late ∧ u.sys.client.subs.brxs[id]? = some r ∧
      SomeOf U.S (receivedMulti U.S.cfg id (usbClientSteps ls2) u2.sys.client ++ r.pending) (late ++ usbPublications U key ls2 u2) ∧
      (r.alive = true → r.lost = 0 →
        ∀ fs, fs <+: receivedMulti U.S.cfg id (usbClientSteps ls2) u2.sys.client ++ r.pending →
          NoGaps U.S fs (late ++ usbPublications U key ls2 u2)) := by
  obtain ⟨inv, w, k1, k2, k3, late, zs, hlate, H⟩ := usb_topic_sub x hU h0 h1 h2 h3 hu hsm (subscribesMulti_sub hsub)
  obtain ⟨r, b1, b2, b3, b4, b5, b6⟩ := brx_now k2 hsub k1 k3
  refine ⟨late, r, hlate, b1, heard_order x inv H b6, fun hal hlost fs hfs => ?_⟩
  rw [usbClientSteps_at] at hl
  have e := (c40_multi_all_accounted_partial b4 b1 hal (noShared_of x inv w hl b4).2).2 hlost
  rw [b5, b2, b3] at e
  rw [e] at hfs
  exact heard_no_gaps (s1 := u2.abs) (s := u.abs) x inv H hfs

/-- C94 (no gaps) over a USB cable, multi-subscriptions that have lost nothing. -/
theorem c94_usb_no_gaps_multi (a : App V E SC Ctx) (U : UsbCfg V E SC Ctx) (hU : UsbSound U) (hD : define_dispatch a = .ok U.S.disp)
    (hdecl : Declared a U.S.kkind) (hapart : KeysApart a U.S) {key : Key} (ht : AppTopic a U.S.kkind key)
    (hdist : short (keyLen U.S.kkind) key ≠ short (keyLen U.S.kkind) a.std.error)
    {es : List (UsbSys V E SC Ctx)} {u0 : UsbSys V E SC Ctx} (h0 : UsbSessions a U DevIdle es u0) {u1 u2 u : UsbSys V E SC Ctx}
    {ls1 ls2 : List (ULabel V)} {l : Label} (h1 : u_run U ls1 u0 = some u1) (h2 : u_step U u1 (.client l) = some u2)
    (h3 : u_run U ls2 u2 = some u) (hu : ∀ k ∈ ls1 ++ .client l :: ls2, UsbUsed a k) (hsm : Small U.S u.sys)
    (hl : ∀ k ∈ usbClientSteps (ls1 ++ .client l :: ls2), ToDeclared a k) {id : Nat} (hsub : SubscribesMulti u1.sys.client.subs key id l)
    {r : BRx} (hr : u.sys.client.subs.brxs[id]? = some r) (hal : r.alive = true) (hlost : r.lost = 0) :
    ∃ late, UsbStillComing u1 (usbPublications U key ls1 u0) late ∧
      ∀ fs, fs <+: receivedMulti U.S.cfg id (usbClientSteps ls2) u2.sys.client ++ r.pending →
        NoGaps U.S fs (late ++ usbPublications U key ls2 u2) := by
  obtain ⟨late, r', g1, g2, _, g3⟩ := usb_no_gaps_of hU (topicCtx_of hD hdecl hapart ht hdist) h0 h1 h2 h3 hu hsm hl hsub
  have hc : r' = r := Option.some.inj (g2.symm.trans hr)
  subst hc
  exact ⟨late, g1, g3 hal hlost⟩

/-- The run over a cable, and one more message, of which the first packet has been written. -/
def exUsbTopicMore (r : Label) : List (ULabel Nat) := exUsbTopicAfter r ++ [.app_publish (exKey 0x91#8) (.Seq1 3) 13, .dev_write .ok]

set_option synthInstance.maxSize 1000 in
example : (∀ k ∈ exUsbTopicBefore ++ .client (.sub_repl (exKey 0x91#8) 4) :: exUsbTopicMore (.recv_excl 0), UsbUsed exSysApp k) ∧
    (∀ k ∈ usbClientSteps (exUsbTopicBefore ++ .client (.sub_repl (exKey 0x91#8) 4) :: exUsbTopicMore (.recv_excl 0)), ToDeclared exSysApp k) ∧
    ∃ u1 u2 u, u_run exUsb exUsbTopicBefore (UsbSys.new 0) = some u1 ∧
      u_step exUsb u1 (.client (.sub_repl (exKey 0x91#8) 4)) = some u2 ∧
      u_run exUsb (exUsbTopicMore (.recv_excl 0)) u2 = some u ∧ Small exUsb.S u.sys ∧
      Subscribes u1.sys.client.subs (exKey 0x91#8) 0 (.sub_repl (exKey 0x91#8) 4) ∧
      ∃ c, Undisturbed u.sys.client 0 c ∧ c.dropped = false ∧ u.cur.length = 64 := by
  refine ⟨by decide, by decide, ?_⟩
  have h1 : ((u_run exUsb exUsbTopicBefore (UsbSys.new 0)).bind fun u1 =>
      (u_step exUsb u1 (.client (.sub_repl (exKey 0x91#8) 4))).bind fun u2 =>
      (u_run exUsb (exUsbTopicMore (.recv_excl 0)) u2).map fun u =>
        (decide (Subscribes u1.sys.client.subs (exKey 0x91#8) 0 (.sub_repl (exKey 0x91#8) 4)), u.cur.length, u.sys.client.in_pc,
          u.sys.client.subs.chans)) =
      some (true, 64, .recv, [⟨exKey 0x91#8, 4, [⟨⟨.Key1 ⟨0x91#8⟩, .Seq2 2⟩, List.replicate 70 12⟩], true, 0,
        [⟨⟨.Key1 ⟨0x91#8⟩, .Seq1 1⟩, List.replicate 70 11⟩], false⟩]) := by decide +kernel
  obtain ⟨u1, e1, h1⟩ := Option.bind_eq_some_iff.mp h1
  obtain ⟨u2, e2, h1⟩ := Option.bind_eq_some_iff.mp h1
  obtain ⟨u, e3, h1⟩ := Option.map_eq_some_iff.mp h1
  simp only [Prod.mk.injEq, decide_eq_true_eq] at h1
  obtain ⟨g1, g2, g3, g4⟩ := h1
  refine ⟨u1, u2, u, e1, e2, e3, exUsb_small _, g1, _, ⟨by rw [g4]; rfl, rfl, fun j cj hj hc => ?_,
    by rw [g3]; exact ⟨by simp, by simp⟩⟩, rfl, g2⟩
  rw [g4] at hc
  rw [List.getElem?_eq_none (by simpa using Nat.succ_le_of_lt hj)] at hc
  cases hc

set_option synthInstance.maxSize 1000 in
example : (∀ k ∈ exUsbTopicBefore ++ .client (.sub_multi (exKey 0x91#8) 4) :: exUsbTopicMore (.recv_multi 0), UsbUsed exSysApp k) ∧
    (∀ k ∈ usbClientSteps (exUsbTopicBefore ++ .client (.sub_multi (exKey 0x91#8) 4) :: exUsbTopicMore (.recv_multi 0)), ToDeclared exSysApp k) ∧
    ∃ u1 u2 u, u_run exUsb exUsbTopicBefore (UsbSys.new 0) = some u1 ∧
      u_step exUsb u1 (.client (.sub_multi (exKey 0x91#8) 4)) = some u2 ∧
      u_run exUsb (exUsbTopicMore (.recv_multi 0)) u2 = some u ∧
      SubscribesMulti u1.sys.client.subs (exKey 0x91#8) 0 (.sub_multi (exKey 0x91#8) 4) ∧
      ∃ r, u.sys.client.subs.brxs[0]? = some r ∧ r.alive = true ∧ r.lost = 0 ∧ u.cur.length = 64 := by
  refine ⟨by decide, by decide, ?_⟩
  have h1 : ((u_run exUsb exUsbTopicBefore (UsbSys.new 0)).bind fun u1 =>
      (u_step exUsb u1 (.client (.sub_multi (exKey 0x91#8) 4))).bind fun u2 =>
      (u_run exUsb (exUsbTopicMore (.recv_multi 0)) u2).map fun u =>
        (decide (SubscribesMulti u1.sys.client.subs (exKey 0x91#8) 0 (.sub_multi (exKey 0x91#8) 4)), u.cur.length,
          u.sys.client.subs.brxs[0]?.map (fun r => (r.alive, r.lost, r.got.length, r.pending.length)))) =
      some (true, 64, some (true, 0, 1, 1)) := by decide +kernel
  obtain ⟨u1, e1, h1⟩ := Option.bind_eq_some_iff.mp h1
  obtain ⟨u2, e2, h1⟩ := Option.bind_eq_some_iff.mp h1
  obtain ⟨u, e3, h1⟩ := Option.map_eq_some_iff.mp h1
  simp only [Prod.mk.injEq, decide_eq_true_eq] at h1
  obtain ⟨g1, g2, g4⟩ := h1
  obtain ⟨r, g7, g8⟩ := Option.map_eq_some_iff.mp g4
  simp only [Prod.mk.injEq] at g8
  exact ⟨u1, u2, u, e1, e2, e3, g1, r, g7, g8.1, g8.2.1, g2⟩

/-- The device is used by a second process: it publishes a message, that process subscribes, and it publishes another. -/
def exCalmTopicBefore : List (ULabel Nat) := [.client .in_poll, .app_publish (exKey 0x91#8) (.Seq1 1) 11]

def exCalmTopicAfter : List (ULabel Nat) :=
  [.dev_write .ok, .app_publish (exKey 0x91#8) (.Seq2 2) 12, .dev_write .ok] ++
  (topicRecv [0x00, 0x91, 1, 11] ++ topicRecv [0x10, 0x91, 2, 0, 12] ++ [Label.recv_excl 0]).map .client

set_option synthInstance.maxSize 4000 in
/-- The theorems on the cable apply to that session. -/
example : AppTopic exCalmApp exUsbCalm.S.kkind (exKey 0x91#8) ∧
    (∀ k ∈ exCalmTopicBefore ++ .client (.sub_repl (exKey 0x91#8) 4) :: exCalmTopicAfter, UsbUsed exCalmApp k) ∧
    (∀ k ∈ usbClientSteps (exCalmTopicBefore ++ .client (.sub_repl (exKey 0x91#8) 4) :: exCalmTopicAfter), ToDeclared exCalmApp k) ∧
    ∃ u0 u1 u2 u, UsbSessions exCalmApp exUsbCalm DevIdle [u0] u0.next ∧ u_run exUsbCalm exCalmTopicBefore u0.next = some u1 ∧
      u_step exUsbCalm u1 (.client (.sub_repl (exKey 0x91#8) 4)) = some u2 ∧
      u_run exUsbCalm exCalmTopicAfter u2 = some u ∧ Small exUsbCalm.S u.sys ∧
      Subscribes u1.sys.client.subs (exKey 0x91#8) 0 (.sub_repl (exKey 0x91#8) 4) ∧
      ∃ c, Undisturbed u.sys.client 0 c ∧ c.dropped = false ∧ c.got.length = 1 ∧ c.queue.length = 1 := by
  refine ⟨⟨exSys_appTopic.listed, exSys_appTopic.schemas, exSys_appTopic.handlers⟩, by decide, by decide, ?_⟩
  obtain ⟨u0, u1, hs, e1, h1⟩ := exUsbTwo (P := DevIdle) (k := devIdleB) (l1 := exCalmFirst) (l2 := exCalmTopicBefore)
    (g := fun u1 => (u_step exUsbCalm u1 (.client (.sub_repl (exKey 0x91#8) 4))).bind fun u2 =>
      (u_run exUsbCalm exCalmTopicAfter u2).map fun u =>
        (decide (Subscribes u1.sys.client.subs (exKey 0x91#8) 0 (.sub_repl (exKey 0x91#8) 4)), u.sys.client.in_pc, u.sys.client.subs.chans))
    (x := some (true, .recv, [⟨exKey 0x91#8, 4, [⟨⟨.Key1 ⟨0x91#8⟩, .Seq2 2⟩, [12]⟩], true, 0, [⟨⟨.Key1 ⟨0x91#8⟩, .Seq1 1⟩, [11]⟩], false⟩]))
    (by decide) (n := 1) (by decide) rfl (by decide +kernel) devIdleB_ok (by decide +kernel)
  obtain ⟨u2, e2, h1⟩ := Option.bind_eq_some_iff.mp h1
  obtain ⟨u, e3, h1⟩ := Option.map_eq_some_iff.mp h1
  simp only [Prod.mk.injEq, decide_eq_true_eq] at h1
  obtain ⟨g1, g3, g4⟩ := h1
  refine ⟨u0, u1, u2, u, hs, e1, e2, e3, exUsbCalm_small _, g1, _, ⟨by rw [g4]; rfl, rfl, fun j cj hj hc => ?_,
    by rw [g3]; exact ⟨by simp, by simp⟩⟩, rfl, rfl, rfl⟩
  rw [g4] at hc
  rw [List.getElem?_eq_none (by simpa using Nat.succ_le_of_lt hj)] at hc
  cases hc

end PRpc.Props
