import Verif.Spec.History
import Verif.Lemmas.History
import Verif.Props.Published
import Verif.Props.UsbNext
/-! C107: over the sessions of all its clients, the requests a server receives take effect one after the other. -/

namespace PRpc.Props

open Spec

variable {V E SC Ctx : Type}

/-- C107: over all sessions, the context of the handlers goes through one history. -/
theorem c107_one_history (a : App V E SC Ctx) (S : SysCfg V E SC Ctx) {es : List (Sys V E SC Ctx)} {s0 : Sys V E SC Ctx}
    (h0 : Sessions a S es s0) {ls : List (SLabel V)} {s : Sys V E SC Ctx} (hrun : sys_run S ls s0 = some s) :
    OneHistory S.disp (es ++ [s]) := by
  obtain ⟨i1, i2, i3⟩ := sessions_history h0
  have ci := sys_run_ctxInv hrun (ctxInv_sessions h0)
  have all : ∀ e ∈ es ++ [s], ∃ c, CtxInv c S e := by
    intro e he
    rcases List.mem_append.mp he with he | he
    · exact i1 e he
    · cases List.mem_singleton.mp he
      exact ⟨_, ci⟩
  refine ⟨fun e he => ?_, fun e he => ?_, fun k e e' he he' => ?_⟩
  · obtain ⟨c, inv⟩ := all e he
    unfold contexts
    rw [List.length_append, inv.len]
    rfl
  · obtain ⟨c, inv⟩ := all e he
    exact inv.chain
  · rcases snoc_get he' with g' | ⟨g', rfl⟩
    · have := getElem?_lt g'
      rw [List.getElem?_append_left (by omega)] at he
      exact i3 k e e' he g'
    · rw [List.getElem?_append_left (by omega)] at he
      have : es.getLast? = some e := by rw [List.getLast?_eq_getElem?, ← g', Nat.add_sub_cancel]; exact he
      rw [← i2 e this]
      exact ci.first

/-- C107: in every session the server gets the request of a call at most once. -/
theorem c107_once (a : App V E SC Ctx) (S : SysCfg V E SC Ctx) (hD : define_dispatch a = .ok S.disp)
    {es : List (Sys V E SC Ctx)} {s0 : Sys V E SC Ctx} (h0 : Sessions a S es s0) {ls : List (SLabel V)} {s : Sys V E SC Ctx}
    (hu : ∀ l ∈ ls, Used a l) (hrun : sys_run S ls s0 = some s) (hlen : s.client.calls.length < 2 ^ 32) {c j j' : Nat}
    (h : AskedAt S.disp s c j) (h' : AskedAt S.disp s c j') : j = j' :=
  asked_once hD (sys_run_inv hrun hu (sessions_start h0).inv) hlen h h'

/-- C107: in every session a call that returned a reply returned (a beginning of) what the handler of its endpoint gives for its
request in the context that all before it have left, in this session and the ones before; or that of a task spawned in an earlier
session, to a request with the same number for the same endpoint. -/
theorem c107_applied (a : App V E SC Ctx) (S : SysCfg V E SC Ctx) (hD : define_dispatch a = .ok S.disp)
    (hdecl : Declared a S.kkind) (hapart : KeysApart a S)
    (hdist : ∀ r ∈ a.endpoint_list.endpoints, short (keyLen S.kkind) r.resp ≠ short (keyLen S.kkind) a.std.error)
    {es : List (Sys V E SC Ctx)} {s0 : Sys V E SC Ctx} (h0 : Sessions a S es s0) {ls : List (SLabel V)} {s : Sys V E SC Ctx}
    (hu : ∀ l ∈ ls, Used a l) (hrun : sys_run S ls s0 = some s)
    (hlen : s.client.calls.length < 2 ^ 32) {c : Nat} {cl : Call} {f : RpcFrame} {i : Nat}
    (hc : s.client.calls[c]? = some cl) (hres : result cl = some (false, f, i)) :
    ∃ o ∈ s.outs, CarriesPart S.enc o f ∧
      ((∃ j hdr, RequestOf s c cl j hdr ∧ AskedAt S.disp s c j ∧ Applied S.disp s j hdr cl.rqst.body o.frame) ∨
        ∃ k j t, StaleReply S.disp s cl.resp_key o k j t ∧ ∃ e ∈ es, ∃ c' cl', SameNumber S.disp e c' cl' cl j t) := by
  obtain ⟨o, ho, h1, h2⟩ := session_reply a S hD hdecl hapart hdist h0 hu hrun hlen hc hres
  refine ⟨o, ho, h1, ?_⟩
  rcases h2 with ⟨j, hdr, req, h2, h3, h4⟩ | h2
  · obtain ⟨b, hb, hf⟩ := h2.sent
    exact .inl ⟨j, hdr, h2, reply_asked h2 h3 h4, reply_applied (sys_run_ctxInv hrun (ctxInv_sessions h0)) hb hf ho h4⟩
  · exact .inr h2

/-- C107: in every session the request of a call begun after another one has returned (a reply or an error, be it one meant for an
earlier client) takes effect after that of the other. -/
theorem c107_real_time (a : App V E SC Ctx) (S : SysCfg V E SC Ctx) (hD : define_dispatch a = .ok S.disp)
    {es : List (Sys V E SC Ctx)} {s0 : Sys V E SC Ctx} (h0 : Sessions a S es s0)
    {ls ls' : List (SLabel V)} {s s' : Sys V E SC Ctx} (hu : ∀ l ∈ ls, Used a l) (hu' : ∀ l ∈ ls', Used a l)
    (hrun : sys_run S ls s0 = some s) (hrun' : sys_run S ls' s = some s') (hlen : s'.client.calls.length < 2 ^ 32)
    {c c' j j' : Nat} {cl : Call} {r : Bool × RpcFrame × Nat} (hc : s.client.calls[c]? = some cl) (hres : result cl = some r)
    (hc' : s.client.calls.length ≤ c') (h : AskedAt S.disp s' c j) (h' : AskedAt S.disp s' c' j') : j < j' := by
  have hR := (dispatches hD).toReceives
  have inv := sys_run_inv hrun hu (sessions_start h0).inv
  have inv' := sys_run_inv hrun' hu' inv
  have h1 := asked_before hR inv' hlen (since_run inv hu' hrun' (.refl s)) hc (result_past hres) h
  have h2 := asked_after_enq hR inv inv' hlen (sys_run_later hrun') (sys_run_enq hrun') hc' h'
  omega

/-- C107: in a session in which no task spawned in an earlier one replies, when a call has returned its reply the handlers have been
given all that was published in the session before the call was begun. -/
theorem c107_published (a : App V E SC Ctx) (S : SysCfg V E SC Ctx) (hD : define_dispatch a = .ok S.disp)
    (hdecl : Declared a S.kkind) (hapart : KeysApart a S)
    (hdist : ∀ r ∈ a.endpoint_list.endpoints, short (keyLen S.kkind) r.resp ≠ short (keyLen S.kkind) a.std.error) (hh : Hears S)
    {es : List (Sys V E SC Ctx)} {s0 : Sys V E SC Ctx} (h0 : Sessions a S es s0)
    {ls ls' : List (SLabel V)} {s s' : Sys V E SC Ctx} (hu : ∀ l ∈ ls, Used a l) (hu' : ∀ l ∈ ls', Used a l)
    (hl : ∀ l ∈ ls ++ ls', l ≠ .reject) (hown : OwnTasks s0.tasks.length (ls ++ ls'))
    (hrun : sys_run S ls s0 = some s) (hrun' : sys_run S ls' s = some s')
    (hlen : s'.client.calls.length < 2 ^ 32) {c : Nat} {cl : Call} {f : RpcFrame} {i : Nat} (hc : s.client.calls.length ≤ c)
    (hcl : s'.client.calls[c]? = some cl) (hres : result cl = some (false, f, i)) :
    (publishedOk S ls s0).filterMap (says a) <+: toHandlers (s'.srv.log.drop s0.srv.log.length) := by
  have hR := (dispatches hD).toReceives
  have all : sys_run S (ls ++ ls') s0 = some s' := (sys_run_append hrun).trans hrun'
  have hu2 : ∀ l ∈ ls ++ ls', Used a l := fun l hl => (List.mem_append.mp hl).elim (hu l) (hu' l)
  have st := sessions_start h0
  have inv := sys_run_inv hrun hu st.inv
  have inv' := sys_run_inv hrun' hu' inv
  obtain ⟨o, ho, _, ⟨j, hdr, req, h2, h3, h4⟩ | ⟨k, j, t, h2, _⟩⟩ := session_reply a S hD hdecl hapart hdist h0 hu2 all hlen hcl hres
  · have hj : j < s'.taken := by
      have ci := sys_run_ctxInv all (ctxInv_sessions h0)
      cases h4 with
      | called => exact ci.srcs _ j (.inl ho) rfl
      | spawned h v w i sc fr cut _ _ _ _ _ hold ht => exact ci.tasks i _ hold ht
      | ping => exact ci.srcs _ j (.inl ho) rfl
      | schemas => exact ci.srcs _ j (.inl ho) rfl
    have hle := asked_after_enq hR inv inv' hlen (sys_run_later hrun') (sys_run_enq hrun') hc (reply_asked h2 h3 h4)
    obtain ⟨si, og, ev, p⟩ := pubInv_run hR hdecl (X := True) (fun _ => hh) st.inv.toSysInvR
      (pubInv_start (by cases h0 <;> rfl) (sessions_taken h0)) (fun l h => used_raw (hu l h)) (fun _ l h => hl l (List.mem_append_left _ h)) hrun
    obtain ⟨_, ox, ex, p'⟩ := pubInv_run hR hdecl (X := True) (fun _ => hh) si p
      (fun l h => used_raw (hu' l h)) (fun _ l h => hl l (List.mem_append_right _ h)) hrun'
    simp only [List.nil_append] at p p'
    have e1 : s'.srv.log.drop s0.srv.log.length = ev ++ ex := by rw [p'.log, List.drop_left]
    have hn : og.length ≤ s'.taken := by have := p.len; omega
    refine ⟨(ox.take (s'.taken - og.length)).filterMap fun o => o.bind (says a), ?_⟩
    rw [e1, p'.all trivial, ← p.pubs, ← filterMap_bind_id, ← List.filterMap_append, List.take_append, List.take_of_length_le hn]
  · have := sys_run_sources all hown (fun o ho => by rw [st.quiet.1, st.quiet.2] at ho; rcases ho with ho | ho <;> cases ho)
      o (.inr ho) k h2.src
    have h3 := h2.earlier
    rw [sys_run_old all, st.old] at h3
    omega

/-! ### Over a USB cable -/

/-- C107 over a USB cable: the context goes through one history. -/
theorem c107_usb_one_history (a : App V E SC Ctx) (U : UsbCfg V E SC Ctx) (hU : UsbSound U) {es : List (UsbSys V E SC Ctx)}
    {u0 : UsbSys V E SC Ctx} (h0 : UsbSessions a U DevIdle es u0) {ls : List (ULabel V)} {u : UsbSys V E SC Ctx}
    (hu : ∀ l ∈ ls, UsbUsed a l) (hrun : u_run U ls u0 = some u) (hsm : Small U.S u.sys) :
    OneHistory U.S.disp ((es ++ [u]).map fun e => e.sys) := by
  obtain ⟨ls', _, hr⟩ := next_run hU h0 hu hrun hsm
  have h := c107_one_history a U.S (usb_sessions hU h0).2 hr
  have e : es.map UsbSys.abs ++ [u.abs] = (es ++ [u]).map UsbSys.abs := by rw [List.map_append]; rfl
  rw [e] at h
  refine ⟨fun s hs => ?_, fun s hs j hj => ?_, fun k s s' hs hs' => ?_⟩
  · obtain ⟨v, hv, rfl⟩ := List.mem_map.mp hs
    exact h.recorded v.abs (List.mem_map.mpr ⟨v, hv, rfl⟩)
  · obtain ⟨v, hv, rfl⟩ := List.mem_map.mp hs
    obtain ⟨ctx, ctx', g1, g2, g3⟩ := h.effects v.abs (List.mem_map.mpr ⟨v, hv, rfl⟩) j hj
    exact ⟨ctx, ctx', g1, g2, effect_abs g3⟩
  · rw [List.getElem?_map] at hs hs'
    obtain ⟨v, hv, rfl⟩ := Option.map_eq_some_iff.mp hs
    obtain ⟨v', hv', rfl⟩ := Option.map_eq_some_iff.mp hs'
    exact h.handed_on k v.abs v'.abs (by rw [List.getElem?_map, hv]; rfl) (by rw [List.getElem?_map, hv']; rfl)

/-- C107 over a USB cable: the device gets a request at most once. -/
theorem c107_usb_once (a : App V E SC Ctx) (U : UsbCfg V E SC Ctx) (hU : UsbSound U) (hD : define_dispatch a = .ok U.S.disp)
    {es : List (UsbSys V E SC Ctx)} {u0 : UsbSys V E SC Ctx} (h0 : UsbSessions a U DevIdle es u0) {ls : List (ULabel V)}
    {u : UsbSys V E SC Ctx} (hu : ∀ l ∈ ls, UsbUsed a l) (hrun : u_run U ls u0 = some u) (hsm : Small U.S u.sys)
    (hlen : u.sys.client.calls.length < 2 ^ 32) {c j j' : Nat}
    (h : AskedAt U.S.disp u.sys c j) (h' : AskedAt U.S.disp u.sys c j') : j = j' := by
  obtain ⟨ls', hu', hr⟩ := next_run hU h0 hu hrun hsm
  exact c107_once a U.S hD (usb_sessions hU h0).2 (s := u.abs) hu' hr hlen ⟨h.asked⟩ ⟨h'.asked⟩

/-- C107 over a USB cable: in which context replies are given. -/
theorem c107_usb_applied (a : App V E SC Ctx) (U : UsbCfg V E SC Ctx) (hU : UsbSound U) (hD : define_dispatch a = .ok U.S.disp)
    (hdecl : Declared a U.S.kkind) (hapart : KeysApart a U.S)
    (hdist : ∀ r ∈ a.endpoint_list.endpoints, short (keyLen U.S.kkind) r.resp ≠ short (keyLen U.S.kkind) a.std.error)
    {es : List (UsbSys V E SC Ctx)} {u0 : UsbSys V E SC Ctx} (h0 : UsbSessions a U DevIdle es u0) {ls : List (ULabel V)}
    {u : UsbSys V E SC Ctx} (hu : ∀ l ∈ ls, UsbUsed a l) (hrun : u_run U ls u0 = some u) (hsm : Small U.S u.sys)
    (hlen : u.sys.client.calls.length < 2 ^ 32) {c : Nat} {cl : Call} {f : RpcFrame} {i : Nat}
    (hc : u.sys.client.calls[c]? = some cl) (hres : result cl = some (false, f, i)) :
    ∃ o ∈ u.sys.outs, CarriesPart U.S.enc o f ∧
      ((∃ j hdr, RequestOf u.sys c cl j hdr ∧ AskedAt U.S.disp u.sys c j ∧ Applied U.S.disp u.sys j hdr cl.rqst.body o.frame) ∨
        ∃ k j t, StaleReply U.S.disp u.sys cl.resp_key o k j t ∧ ∃ e ∈ es, ∃ c' cl', SameNumber U.S.disp e.sys c' cl' cl j t) := by
  obtain ⟨ls', hu', hr⟩ := next_run hU h0 hu hrun hsm
  obtain ⟨o, ho, h1, h2⟩ := c107_applied a U.S hD hdecl hapart hdist (usb_sessions hU h0).2 hu' hr hlen hc hres
  refine ⟨o, ho, h1, ?_⟩
  rcases h2 with ⟨j, hdr, h2, h3, h4⟩ | ⟨k, j, t, h2, e, he, c', cl', h3⟩
  · exact .inl ⟨j, hdr, request_abs h2, ⟨h3.asked⟩, applied_abs h4⟩
  · obtain ⟨e, hm, rfl⟩ := List.mem_map.mp he
    exact .inr ⟨k, j, t, ⟨h2.src, h2.earlier, h2.task, h2.role, h2.row, h2.seq, h2.body⟩, e, hm, c', cl',
      ⟨request_abs h3.request, h3.number, h3.handler⟩⟩

/-- C107 over a USB cable: real time. -/
theorem c107_usb_real_time (a : App V E SC Ctx) (U : UsbCfg V E SC Ctx) (hU : UsbSound U) (hD : define_dispatch a = .ok U.S.disp)
    {es : List (UsbSys V E SC Ctx)} {u0 : UsbSys V E SC Ctx} (h0 : UsbSessions a U DevIdle es u0)
    {ls ls' : List (ULabel V)} {u u' : UsbSys V E SC Ctx} (hu : ∀ l ∈ ls, UsbUsed a l) (hu' : ∀ l ∈ ls', UsbUsed a l)
    (hrun : u_run U ls u0 = some u) (hrun' : u_run U ls' u = some u') (hsm : Small U.S u'.sys)
    (hlen : u'.sys.client.calls.length < 2 ^ 32)
    {c c' j j' : Nat} {cl : Call} {r : Bool × RpcFrame × Nat} (hc : u.sys.client.calls[c]? = some cl) (hres : result cl = some r)
    (hc' : u.sys.client.calls.length ≤ c') (h : AskedAt U.S.disp u'.sys c j) (h' : AskedAt U.S.disp u'.sys c' j') : j < j' := by
  obtain ⟨i, hs⟩ := usb_sessions hU h0
  obtain ⟨inv, ls1, hr1, hst1⟩ := sim_run hU.buffer hU.some_buffer i (small_before hsm (u_run_grows hrun').1) hrun
  obtain ⟨_, ls2, hr2, hst2⟩ := sim_run hU.buffer hU.some_buffer inv hsm hrun'
  exact c107_real_time a U.S hD hs (s := u.abs) (s' := u'.abs) (fun l' hl' => by
    obtain ⟨l, hl, h⟩ := hst1 l' hl'
    exact stands_used h (hu l hl)) (fun l' hl' => by
    obtain ⟨l, hl, h⟩ := hst2 l' hl'
    exact stands_used h (hu' l hl)) hr1 hr2 hlen hc hres hc' ⟨h.asked⟩ ⟨h'.asked⟩

/-- C107 over a USB cable: all that was published in a session before a call that has returned its reply was given. -/
theorem c107_usb_published (a : App V E SC Ctx) (U : UsbCfg V E SC Ctx) (hU : UsbSound U) (hD : define_dispatch a = .ok U.S.disp)
    (hdecl : Declared a U.S.kkind) (hapart : KeysApart a U.S)
    (hdist : ∀ r ∈ a.endpoint_list.endpoints, short (keyLen U.S.kkind) r.resp ≠ short (keyLen U.S.kkind) a.std.error)
    (hh : Hears U.S) {es : List (UsbSys V E SC Ctx)} {u0 : UsbSys V E SC Ctx} (h0 : UsbSessions a U DevIdle es u0)
    {ls ls' : List (ULabel V)} {u u' : UsbSys V E SC Ctx} (hu : ∀ l ∈ ls, UsbUsed a l)
    (hu' : ∀ l ∈ ls', UsbUsed a l) (hown : UsbOwnTasks u0.sys.tasks.length (ls ++ ls')) (hrun : u_run U ls u0 = some u)
    (hrun' : u_run U ls' u = some u')
    (hsm : Small U.S u'.sys) (hfit : RequestsFit U u'.sys) (hlen : u'.sys.client.calls.length < 2 ^ 32) {c : Nat} {cl : Call}
    {f : RpcFrame} {i : Nat} (hc : u.sys.client.calls.length ≤ c) (hcl : u'.sys.client.calls[c]? = some cl)
    (hres : result cl = some (false, f, i)) :
    (usbPublishedOk U ls u0).filterMap (says a) <+: toHandlers (u'.sys.srv.log.drop u0.sys.srv.log.length) := by
  have hfit1 := fit_before hfit (u_run_grows hrun').2
  obtain ⟨i0, hs⟩ := usb_sessions hU h0
  obtain ⟨inv, hrx, ls1, hr1, hst1, hp1, hn1⟩ := sim_published hU i0 (fun _ => usb_sessions_rx h0)
    (small_before hsm (u_run_grows hrun').1) hrun
  obtain ⟨_, _, ls2, hr2, hst2, _, hn2⟩ := sim_published hU inv (fun _ => hrx hfit1) hsm hrun'
  rw [← hp1]
  exact c107_published a U.S hD hdecl hapart hdist hh hs (s := u.abs) (s' := u'.abs) (fun l' hl' => by
    obtain ⟨l, hl, h⟩ := hst1 l' hl'
    exact stands_used h (hu l hl)) (fun l' hl' => by
    obtain ⟨l, hl, h⟩ := hst2 l' hl'
    exact stands_used h (hu' l hl)) (fun l hl => (List.mem_append.mp hl).elim (hn1 hfit1 l) (hn2 hfit l)) (fun k v hk => by
    rcases List.mem_append.mp hk with hk | hk
    · obtain ⟨l, hl, h⟩ := hst1 _ hk
      cases h
      exact hown k v (List.mem_append_left _ hl)
    · obtain ⟨l, hl, h⟩ := hst2 _ hk
      cases h
      exact hown k v (List.mem_append_right _ hl)) hr1 hr2 hlen hc hcl hres

/-! ### Concrete sessions -/

/-- The second client publishes a message and then makes a call. -/
def exHistory : List (SLabel Nat) :=
  sysPublish 0 6#8 0 [7] ++ sysCall 0 3#8 0x83#8 [7] ++ sysSend ++ [.serve, .serve, .flush] ++
  sysRecv [0x20, 0x83, 0, 0, 0, 0, 114] (some ⟨0, false⟩) ++ [.client (.call_ok 0)]

/-- After that has returned it makes another. -/
def exHistory' : List (SLabel Nat) :=
  sysCall 1 3#8 0x83#8 [5] ++ sysSend ++ [.serve, .flush] ++ sysRecv [0x20, 0x83, 1, 0, 0, 0, 113] (some ⟨1, false⟩) ++
  [.client (.call_ok 1)]

set_option synthInstance.maxSize 1000 in
/-- The first client's request has turned the context into 100; the message adds 7, each call 1. -/
theorem exHistory_result : ((sys_run exSys exFirst (Sys.new 0)).bind fun s => sys_run exSys exHistory s.reconnect).map
      (fun s => ((s.client.calls.length, (s.client.calls.map result)[0]?), (sys_run exSys exHistory' s).map fun s' =>
        (contexts s', s'.client.calls.map result, s'.client.calls.map (·.rqst), s'.client.tx.drop 1))) =
    some ((1, some (some (false, ⟨⟨.Key1 ⟨0x83⟩, .Seq4 0⟩, [114]⟩, 0))), some ([100, 107, 108, 109],
      [some (false, ⟨⟨.Key1 ⟨0x83⟩, .Seq4 0⟩, [114]⟩, 0), some (false, ⟨⟨.Key1 ⟨0x83⟩, .Seq4 1⟩, [113]⟩, 1)],
      [⟨⟨.Key8 (exKey 3), .Seq4 0⟩, [7]⟩, ⟨⟨.Key8 (exKey 3), .Seq4 1⟩, [5]⟩],
      [[0xE0, 3, 0, 0, 0, 0, 0, 0, 0, 0, 0, 0, 0, 7], [0x20, 3, 1, 0, 0, 0, 5]])) := by
  decide +kernel

/-- No task replies in a run. -/
theorem ownTasks_none {n : Nat} {ls : List (SLabel Nat)} (h : ls.any (fun l => match l with | .task_reply .. => true | _ => false) = false) :
    OwnTasks n ls := by
  intro i v hi
  exact absurd (List.any_eq_true.mpr ⟨_, hi, rfl⟩) (by rw [h]; decide)

/-- The theorems apply to the second of two sessions: the first call returned before the second was begun, both requests were
received, and a message was published before. -/
example : define_dispatch exSysApp = .ok exSys.disp ∧ Declared exSysApp exSys.kkind ∧ KeysApart exSysApp exSys ∧ Hears exSys ∧
    (∀ r ∈ exSysApp.endpoint_list.endpoints, short (keyLen exSys.kkind) r.resp ≠ short (keyLen exSys.kkind) exSysApp.std.error) ∧
    (∀ l ∈ exHistory ++ exHistory', Used exSysApp l ∧ l ≠ .reject) ∧ (∀ n, OwnTasks n (exHistory ++ exHistory')) ∧
    ∃ s1 s s', Sessions exSysApp exSys [s1] s1.reconnect ∧ sys_run exSys exHistory s1.reconnect = some s ∧
      sys_run exSys exHistory' s = some s' ∧ s'.client.calls.length < 2 ^ 32 ∧
      (∃ cl, s.client.calls[0]? = some cl ∧ result cl = some (false, ⟨⟨.Key1 ⟨0x83⟩, .Seq4 0⟩, [114]⟩, 0)) ∧ s.client.calls.length ≤ 1 ∧
      (∃ cl, s'.client.calls[1]? = some cl ∧ result cl = some (false, ⟨⟨.Key1 ⟨0x83⟩, .Seq4 1⟩, [113]⟩, 1)) ∧
      AskedAt exSys.disp s' 0 1 ∧ AskedAt exSys.disp s' 1 2 := by
  have hu : ∀ l ∈ exHistory ++ exHistory', Used exSysApp l := by decide
  refine ⟨exSysApp_ok, exSysApp_declared, exSysApp_apart, exSys_hears, by decide, fun l hl => ⟨hu l hl, ?_⟩,
    fun n => ownTasks_none (by decide), ?_⟩
  · intro e
    subst e
    have : (exHistory ++ exHistory').any (fun l => match l with | .reject => true | _ => false) = true :=
      List.any_eq_true.mpr ⟨_, hl, rfl⟩
    exact absurd this (by decide)
  obtain ⟨s1, s, e1, hl1, _, e2, e3⟩ := exTwo exHistory_result
  simp only [Prod.mk.injEq] at e3
  obtain ⟨⟨h1, h2⟩, e4⟩ := e3
  obtain ⟨s', e5, e6⟩ := Option.map_eq_some_iff.mp e4
  simp only [Prod.mk.injEq] at e6
  obtain ⟨_, h3, h4, h5⟩ := e6
  have hl : s'.client.calls.length = 2 := by simpa using congrArg List.length h3
  have call : ∀ (c : Nat) (q : RpcFrame), (s'.client.calls.map (·.rqst))[c]? = some q → ∃ cl, s'.client.calls[c]? = some cl ∧ cl.rqst = q := by
    intro c q h
    rw [List.getElem?_map] at h
    exact Option.map_eq_some_iff.mp h
  have tx : ∀ j, s'.client.tx[1 + j]? = (s'.client.tx.drop 1)[j]? := fun j => List.getElem?_drop.symm
  have h7 : (s'.client.calls.map result)[1]? = some (some (false, ⟨⟨.Key1 ⟨0x83⟩, .Seq4 1⟩, [113]⟩, 1)) := by rw [h3]; rfl
  rw [List.getElem?_map] at h2 h7
  refine ⟨s1, s, s', exFirst_session e1 hl1, e2, e5, by omega, Option.map_eq_some_iff.mp h2, by omega, Option.map_eq_some_iff.mp h7, ?_, ?_⟩
  · obtain ⟨cl, c1, c2⟩ := call 0 ⟨⟨.Key8 (exKey 3), .Seq4 0⟩, [7]⟩ (by rw [h4]; rfl)
    exact ⟨cl, [0xE0, 3, 0, 0, 0, 0, 0, 0, 0, 0, 0, 0, 0, 7], ⟨.Key8 (exKey 3), .Seq4 0⟩, exKey 3, c1, by rw [tx 0, h5]; rfl,
      by rw [c2]; exact (isFrame_iff ..).mpr rfl, by rw [c2], by rw [c2], by unfold LongEnough; decide, by decide⟩
  · obtain ⟨cl, c1, c2⟩ := call 1 ⟨⟨.Key8 (exKey 3), .Seq4 1⟩, [5]⟩ (by rw [h4]; rfl)
    exact ⟨cl, [0x20, 3, 1, 0, 0, 0, 5], ⟨.Key1 ⟨3⟩, .Seq4 1⟩, exKey 3, c1, by rw [tx 1, h5]; rfl,
      by rw [c2]; exact (isFrame_iff ..).mpr rfl, by rw [c2], by rw [c2], by unfold LongEnough; decide, by decide⟩

set_option synthInstance.maxSize 1000 in
/-- C107 needs for publications that no task spawned in an earlier session replies: the new client publishes a message and then calls
the spawned endpoint; the call returns what the earlier client's task sent, and the message has not been given to its handler. -/
theorem c107_stale_unheard : (∀ l ∈ sysPublish 0 6#8 0 [7] ++ exSecond, Used exSysApp l) ∧
    ∃ s1 s2, Sessions exSysApp exSys [s1] s1.reconnect ∧ sys_run exSys (sysPublish 0 6#8 0 [7] ++ exSecond) s1.reconnect = some s2 ∧
      s2.client.calls.map result = [some (false, ⟨⟨.Key1 ⟨0x85⟩, .Seq4 0⟩, [11]⟩, 0)] ∧
      (publishedOk exSys (sysPublish 0 6#8 0 [7]) s1.reconnect).filterMap (says exSysApp) = [(20, .Seq4 0, 7)] ∧
      toHandlers s2.srv.log = [] := by
  refine ⟨by decide, ?_⟩
  have h0 : ((sys_run exSys exFirst (Sys.new 0)).bind fun s => sys_run exSys (sysPublish 0 6#8 0 [7] ++ exSecond) s.reconnect).map
      (fun s => (s.client.calls.map result, toHandlers s.srv.log)) =
      some ([some (false, ⟨⟨.Key1 ⟨0x85⟩, .Seq4 0⟩, [11]⟩, 0)], []) := by decide +kernel
  have h1 : (sys_run exSys exFirst (Sys.new 0)).map
      (fun s => (publishedOk exSys (sysPublish 0 6#8 0 [7]) s.reconnect).filterMap (says exSysApp)) = some [(20, .Seq4 0, 7)] := by
    decide +kernel
  obtain ⟨s1, s2, e1, hl1, _, e2, e3⟩ := exTwo h0
  simp only [Prod.mk.injEq] at e3
  rw [e1] at h1
  exact ⟨s1, s2, exFirst_session e1 hl1, e2, e3.1, Option.some.inj h1, e3.2⟩

/-- The second process makes a call, which returns, and publishes a message. -/
def exUsbHistory : List (ULabel Nat) := exCalmSecond ++ usbPublish 0 6#8 0 [7]

/-- Then it makes another call. -/
def exUsbHistory' : List (ULabel Nat) :=
  usbCall 1 3#8 0x83#8 [5] ++ [.client .out_poll, .client .out_recv, .dev_read, .host_packet, .client (.out_done true), .client .out_yield,
    .dev_read, .flush, .dev_write .ok] ++ usbRecv [0x20, 0x83, 1, 0, 0, 0, 14] (some ⟨1, false⟩) ++ [.client (.call_ok 1)]

set_option synthInstance.maxSize 4000 in
/-- The theorems on the cable apply: the first process's request has turned the context into 1, the second's first call adds 1 and the
message 7, and the second call's reply is 5 + 9. -/
example : UsbSound exUsbCalm ∧ define_dispatch exCalmApp = .ok exUsbCalm.S.disp ∧ Declared exCalmApp exUsbCalm.S.kkind ∧
    KeysApart exCalmApp exUsbCalm.S ∧ Hears exUsbCalm.S ∧
    (∀ r ∈ exCalmApp.endpoint_list.endpoints, short (keyLen exCalm.kkind) r.resp ≠ short (keyLen exCalm.kkind) exCalmApp.std.error) ∧
    (∀ l ∈ exUsbHistory ++ exUsbHistory', UsbUsed exCalmApp l) ∧ (∀ n, UsbOwnTasks n (exUsbHistory ++ exUsbHistory')) ∧
    ∃ u1 u u', UsbSessions exCalmApp exUsbCalm DevIdle [u1] u1.next ∧ u_run exUsbCalm exUsbHistory u1.next = some u ∧
      u_run exUsbCalm exUsbHistory' u = some u' ∧ Small exUsbCalm.S u'.sys ∧ RequestsFit exUsbCalm u'.sys ∧
      u'.sys.client.calls.length < 2 ^ 32 ∧
      (∃ cl, u.sys.client.calls[0]? = some cl ∧ result cl = some (false, ⟨⟨.Key1 ⟨0x83⟩, .Seq4 0⟩, [51]⟩, 0)) ∧
      u.sys.client.calls.length ≤ 1 ∧
      (∃ cl, u'.sys.client.calls[1]? = some cl ∧ result cl = some (false, ⟨⟨.Key1 ⟨0x83⟩, .Seq4 1⟩, [14]⟩, 1)) ∧
      contexts u'.sys = [1, 2, 9, 10] ∧ AskedAt exCalm.disp u'.sys 0 0 ∧ AskedAt exCalm.disp u'.sys 1 2 := by
  refine ⟨exUsbCalm_sound, exCalmApp_ok, exCalmApp_declared, exSysApp_apart, ⟨fun _ _ => rfl, by decide⟩, by decide, by decide, ?_, ?_⟩
  · intro n i v hi
    have : (exUsbHistory ++ exUsbHistory').any (fun l => match l with | .task_reply .. => true | _ => false) = true :=
      List.any_eq_true.mpr ⟨_, hi, rfl⟩
    exact absurd this (by decide)
  obtain ⟨u1, u, hs, e1, e2⟩ := exUsbTwo (P := DevIdle) (k := devIdleB) (l1 := exCalmFirst) (l2 := exUsbHistory)
    (g := fun u => ((u.sys.client.calls.length, (u.sys.client.calls.map result)[0]?), (u_run exUsbCalm exUsbHistory' u).map fun u' =>
      (contexts u'.sys, u'.sys.client.calls.map result, u'.sys.client.calls.map (·.rqst),
        (u'.sys.client.tx.map List.length, u'.sys.client.tx[0]?, u'.sys.client.tx[2]?))))
    (x := ((1, some (some (false, ⟨⟨.Key1 ⟨0x83⟩, .Seq4 0⟩, [51]⟩, 0))), some ([1, 2, 9, 10],
      [some (false, ⟨⟨.Key1 ⟨0x83⟩, .Seq4 0⟩, [51]⟩, 0), some (false, ⟨⟨.Key1 ⟨0x83⟩, .Seq4 1⟩, [14]⟩, 1)],
      [⟨⟨.Key8 (exKey 3), .Seq4 0⟩, [50]⟩, ⟨⟨.Key8 (exKey 3), .Seq4 1⟩, [5]⟩],
      ([14, 7, 7], some [0xE0, 3, 0, 0, 0, 0, 0, 0, 0, 0, 0, 0, 0, 50], some [0x20, 3, 1, 0, 0, 0, 5]))))
    (by decide) (n := 1) (by decide) rfl (by decide +kernel) devIdleB_ok (by decide +kernel)
  simp only [Prod.mk.injEq] at e2
  obtain ⟨⟨h1, h2⟩, e4⟩ := e2
  obtain ⟨u', e5, e6⟩ := Option.map_eq_some_iff.mp e4
  simp only [Prod.mk.injEq] at e6
  obtain ⟨hx, h3, h4, h5, h6, h8⟩ := e6
  have hl : u'.sys.client.calls.length = 2 := by simpa using congrArg List.length h3
  have call : ∀ (c : Nat) (q : RpcFrame), (u'.sys.client.calls.map (·.rqst))[c]? = some q →
      ∃ cl, u'.sys.client.calls[c]? = some cl ∧ cl.rqst = q := by
    intro c q h
    rw [List.getElem?_map] at h
    exact Option.map_eq_some_iff.mp h
  have h7 : (u'.sys.client.calls.map result)[1]? = some (some (false, ⟨⟨.Key1 ⟨0x83⟩, .Seq4 1⟩, [14]⟩, 1)) := by rw [h3]; rfl
  rw [List.getElem?_map] at h2 h7
  refine ⟨u1, u, u', hs, e1, e5, exUsbCalm_small _, ?_, by omega, Option.map_eq_some_iff.mp h2, by omega, Option.map_eq_some_iff.mp h7,
    hx, ?_, ?_⟩
  · intro b hb
    have : b.length ∈ u'.sys.client.tx.map List.length := List.mem_map.mpr ⟨b, hb, rfl⟩
    rw [h5] at this
    simp only [List.mem_cons, List.not_mem_nil, or_false, or_self] at this
    show b.length < 128
    omega
  · obtain ⟨cl, c1, c2⟩ := call 0 ⟨⟨.Key8 (exKey 3), .Seq4 0⟩, [50]⟩ (by rw [h4]; rfl)
    exact ⟨cl, [0xE0, 3, 0, 0, 0, 0, 0, 0, 0, 0, 0, 0, 0, 50], ⟨.Key8 (exKey 3), .Seq4 0⟩, exKey 3, c1, h6,
      by rw [c2]; exact (isFrame_iff ..).mpr rfl, by rw [c2], by rw [c2], by unfold LongEnough; decide, by decide⟩
  · obtain ⟨cl, c1, c2⟩ := call 1 ⟨⟨.Key8 (exKey 3), .Seq4 1⟩, [5]⟩ (by rw [h4]; rfl)
    exact ⟨cl, [0x20, 3, 1, 0, 0, 0, 5], ⟨.Key1 ⟨3⟩, .Seq4 1⟩, exKey 3, c1, h8,
      by rw [c2]; exact (isFrame_iff ..).mpr rfl, by rw [c2], by rw [c2], by unfold LongEnough; decide, by decide⟩

end PRpc.Props
