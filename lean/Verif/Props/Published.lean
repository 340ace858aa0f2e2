import Verif.Lemmas.Published
import Verif.Props.Linear
import Verif.Props.Raw
import Verif.Props.RawUsb
import Verif.Props.Live
import Verif.Lemmas.Topics
/-! C106: what a client publishes is what the topic handlers of the server are given. -/

namespace PRpc.Props

open Spec

variable {V E SC Ctx : Type}

/-- C106: in every session the topic handlers are given only what the client's messages say that were published with result `Ok`, at
most once each and in the order of publication, whatever is lost on the way. -/
theorem c106_only_published (a : App V E SC Ctx) (S : SysCfg V E SC Ctx) (hD : define_dispatch a = .ok S.disp)
    (hdecl : Declared a S.kkind) {es : List (Sys V E SC Ctx)} {s0 : Sys V E SC Ctx} (h0 : Sessions a S es s0)
    {ls : List (SLabel V)} {s : Sys V E SC Ctx} (hu : ∀ l ∈ ls, UsedRaw a l) (hrun : sys_run S ls s0 = some s) :
    (toHandlers (s.srv.log.drop s0.srv.log.length)).Sublist ((publishedOk S ls s0).filterMap (says a)) := by
  obtain ⟨_, og, inv⟩ := published_run (dispatches hD).toReceives hdecl (X := False) (fun h => h.elim) h0 hu (fun h => h.elim) hrun
  refine List.Sublist.trans inv.some_ ?_
  rw [← inv.pubs, ← filterMap_bind_id]
  exact (filterMap_take_prefix _ og s.taken).sublist

/-- C106: if no message is too large for the server, its keys are at least as long as the dispatcher's and every task is spawned, none
of them is left out: the handlers have been given all that the messages up to some point say. -/
theorem c106_none_left_out (a : App V E SC Ctx) (S : SysCfg V E SC Ctx) (hD : define_dispatch a = .ok S.disp)
    (hdecl : Declared a S.kkind) (hh : Hears S) {es : List (Sys V E SC Ctx)} {s0 : Sys V E SC Ctx} (h0 : Sessions a S es s0)
    {ls : List (SLabel V)} {s : Sys V E SC Ctx} (hu : ∀ l ∈ ls, UsedRaw a l) (hl : ∀ l ∈ ls, l ≠ .reject)
    (hrun : sys_run S ls s0 = some s) :
    ∃ n, toHandlers (s.srv.log.drop s0.srv.log.length) = ((publishedOk S ls s0).take n).filterMap (says a) := by
  obtain ⟨_, og, inv⟩ := published_run (dispatches hD).toReceives hdecl (X := True) (fun _ => hh) h0 hu (fun _ => hl) hrun
  obtain ⟨x, hx⟩ := filterMap_take_prefix id og s.taken
  refine ⟨((og.take s.taken).filterMap id).length, ?_⟩
  rw [inv.all trivial, filterMap_bind_id, ← inv.pubs, ← hx, List.take_left]

/-- C106: and once the client has sent all it has accepted and the server has taken all of that, they have been given everything. -/
theorem c106_complete (a : App V E SC Ctx) (S : SysCfg V E SC Ctx) (hD : define_dispatch a = .ok S.disp)
    (hdecl : Declared a S.kkind) (hh : Hears S) {es : List (Sys V E SC Ctx)} {s0 : Sys V E SC Ctx} (h0 : Sessions a S es s0)
    {ls : List (SLabel V)} {s : Sys V E SC Ctx} (hu : ∀ l ∈ ls, UsedRaw a l) (hl : ∀ l ∈ ls, l ≠ .reject)
    (hrun : sys_run S ls s0 = some s) (hout : s.client.out_pc ≠ .exited) (hq : s.client.outq = []) (ht : s.taken = s.client.tx.length) :
    toHandlers (s.srv.log.drop s0.srv.log.length) = (publishedOk S ls s0).filterMap (says a) := by
  obtain ⟨si, og, inv⟩ := published_run (dispatches hD).toReceives hdecl (X := True) (fun _ => hh) h0 hu (fun _ => hl) hrun
  have e : s.taken = og.length := by rw [ht, all_taken si.reach hout hq, inv.len]
  rw [inv.all trivial, e, List.take_length, filterMap_bind_id, inv.pubs]

theorem own_run_used {a : App V E SC Ctx} {S : SysCfg V E SC Ctx} {s t : Sys V E SC Ctx} {own : List (SLabel V)}
    (h : SysOwnRun S s own t) : ∀ l ∈ own, Used a l ∧ Listens a l := by
  induction h with
  | nil s => simp
  | cons ho _ _ ih => exact fun l hl => (List.mem_cons.mp hl).elim (fun e => e ▸ own_used ho) (ih l)

/-- C106: left to itself the system gets there: where it can do nothing more, which it reaches (C67, C100), every publication has
returned and the handlers have been given everything. -/
theorem c106_comes_through (a : App V E SC Ctx) (S : SysCfg V E SC Ctx) (hD : define_dispatch a = .ok S.disp)
    (hdecl : Declared a S.kkind) (hfit : Fits a S) (hdepth : 0 < S.cfg.outgoing_depth) (hh : Hears S)
    {es : List (Sys V E SC Ctx)} {s0 : Sys V E SC Ctx} (h0 : Sessions a S es s0) {ls : List (SLabel V)} {s : Sys V E SC Ctx}
    (hu : ∀ l ∈ ls, UsedRaw a l) (hl : ∀ l ∈ ls, Listens a l) (hrun : sys_run S ls s0 = some s)
    (hn : (numbers s.client).Nodup) (hopen : Open s) {own : List (SLabel V)} {t : Sys V E SC Ctx} (ho : SysOwnRun S s own t)
    (hst : SysStuck S t) :
    (∀ p ∈ t.client.pubs, ∃ r, p.res = some r) ∧
    toHandlers (t.srv.log.drop s0.srv.log.length) = (publishedOk S (ls ++ own) s0).filterMap (says a) := by
  have i0 := (sessions_start h0).inv.toSysInvR
  have lv := sys_run_liveR hD hdecl hfit hrun hu hl i0 (sessions_live h0) hn
  have hrest := (own_answeredR hD hdecl hfit hdepth (sys_run_invR hrun hu i0) lv hn hopen ho).1 hst
  refine ⟨hrest.client.pubs, c106_complete a S hD hdecl hh h0 (fun l h => ?_) (fun l h e => ?_)
    ((sys_run_append hrun).trans (run_of_own ho)) (by rw [hrest.client.out.1]; exact fun e => nomatch e) hrest.client.out.2 hrest.taken⟩
  · exact (List.mem_append.mp h).elim (hu l) fun h => used_raw (own_run_used ho l h).1
  · subst e
    exact (List.mem_append.mp h).elim (hl _) fun h => (own_run_used (a := a) ho _ h).2

/-- C106: when a call has returned its reply, the handlers have been given all that was published before the call was begun. -/
theorem c106_before_reply (a : App V E SC Ctx) (S : SysCfg V E SC Ctx) (hD : define_dispatch a = .ok S.disp)
    (hdecl : Declared a S.kkind) (hapart : KeysApart a S)
    (hdist : ∀ r ∈ a.endpoint_list.endpoints, short (keyLen S.kkind) r.resp ≠ short (keyLen S.kkind) a.std.error) (hh : Hears S)
    {ls ls' : List (SLabel V)} {c0 : Ctx} {s s' : Sys V E SC Ctx} (hu : ∀ l ∈ ls, Used a l) (hu' : ∀ l ∈ ls', Used a l)
    (hl : ∀ l ∈ ls ++ ls', l ≠ .reject) (hrun : sys_run S ls (Sys.new c0) = some s) (hrun' : sys_run S ls' s = some s')
    (hlen : s'.client.calls.length < 2 ^ 32) {c : Nat} {cl : Call} {f : RpcFrame} {i : Nat} (hc : s.client.calls.length ≤ c)
    (hcl : s'.client.calls[c]? = some cl) (hres : result cl = some (false, f, i)) :
    (publishedOk S ls (Sys.new c0)).filterMap (says a) <+: toHandlers s'.srv.log := by
  have hR := (dispatches hD).toReceives
  have all : sys_run S (ls ++ ls') (Sys.new c0) = some s' := (sys_run_append hrun).trans hrun'
  have hu2 : ∀ l ∈ ls ++ ls', Used a l := fun l hl => (List.mem_append.mp hl).elim (hu l) (hu' l)
  have inv := sys_run_inv hrun hu (sysInv_new a S c0)
  have inv' := sys_run_inv hrun' hu' inv
  obtain ⟨o, ho, j, hdr, req, h1, h2, h3, h4⟩ := c74_reply_begins a S hD hdecl hapart hdist hu2 all hlen hcl hres
  have hj : j < s'.taken := by
    have ci := sys_run_ctxInv all (ctxInv_new c0 S)
    cases h4 with
    | called => exact ci.srcs _ j (.inl ho) rfl
    | spawned h v w i sc fr cut _ _ _ _ _ hold ht => exact ci.tasks i _ hold ht
    | ping => exact ci.srcs _ j (.inl ho) rfl
    | schemas => exact ci.srcs _ j (.inl ho) rfl
  have hle := asked_after_enq hR inv inv' hlen (sys_run_later hrun') (sys_run_enq hrun') hc (reply_asked h2 h3 h4)
  obtain ⟨si, og, ev, p⟩ := pubInv_run hR hdecl (X := True) (fun _ => hh) (sysInv_new a S c0).toSysInvR (pubInv_start rfl rfl)
    (fun l h => used_raw (hu l h)) (fun _ l h => hl l (List.mem_append_left _ h)) hrun
  obtain ⟨_, ox, ex, p'⟩ := pubInv_run hR hdecl (X := True) (fun _ => hh) si p
    (fun l h => used_raw (hu' l h)) (fun _ l h => hl l (List.mem_append_right _ h)) hrun'
  simp only [List.nil_append] at p p'
  have e1 : s'.srv.log = ev ++ ex := p'.log
  have hn : og.length ≤ s'.taken := by have := p.len; omega
  refine ⟨(ox.take (s'.taken - og.length)).filterMap fun o => o.bind (says a), ?_⟩
  rw [e1, p'.all trivial, ← p.pubs, ← filterMap_bind_id, ← List.filterMap_append, List.take_append, List.take_of_length_le hn]

/-- C106 over a USB cable: only what was published is given. -/
theorem c106_usb_only_published (a : App V E SC Ctx) (U : UsbCfg V E SC Ctx) (hU : UsbSound U) (hD : define_dispatch a = .ok U.S.disp)
    (hdecl : Declared a U.S.kkind) {es : List (UsbSys V E SC Ctx)} {u0 : UsbSys V E SC Ctx} (h0 : UsbSessions a U DevIdle es u0)
    {ls : List (ULabel V)} {u : UsbSys V E SC Ctx} (hu : ∀ l ∈ ls, UsbUsedRaw a l) (hrun : u_run U ls u0 = some u)
    (hsm : Small U.S u.sys) :
    (toHandlers (u.sys.srv.log.drop u0.sys.srv.log.length)).Sublist ((usbPublishedOk U ls u0).filterMap (says a)) := by
  obtain ⟨i, hs⟩ := usb_sessions hU h0
  obtain ⟨_, _, ls', hr, hst, hp, _⟩ := sim_published hU i (fun _ => usb_sessions_rx h0) hsm hrun
  rw [← hp]
  exact c106_only_published a U.S hD hdecl hs (s := u.abs) (fun l' hl' => by
    obtain ⟨l, hl, h⟩ := hst l' hl'
    exact stands_usedR h (hu l hl)) hr

/-- C106 over a USB cable: nothing is left out if every request fits the device's buffer. -/
theorem c106_usb_none_left_out (a : App V E SC Ctx) (U : UsbCfg V E SC Ctx) (hU : UsbSound U) (hD : define_dispatch a = .ok U.S.disp)
    (hdecl : Declared a U.S.kkind) (hh : Hears U.S) {es : List (UsbSys V E SC Ctx)} {u0 : UsbSys V E SC Ctx}
    (h0 : UsbSessions a U DevIdle es u0) {ls : List (ULabel V)} {u : UsbSys V E SC Ctx} (hu : ∀ l ∈ ls, UsbUsedRaw a l)
    (hrun : u_run U ls u0 = some u) (hsm : Small U.S u.sys) (hfit : RequestsFit U u.sys) :
    ∃ n, toHandlers (u.sys.srv.log.drop u0.sys.srv.log.length) = ((usbPublishedOk U ls u0).take n).filterMap (says a) := by
  obtain ⟨i, hs⟩ := usb_sessions hU h0
  obtain ⟨_, _, ls', hr, hst, hp, hnr⟩ := sim_published hU i (fun _ => usb_sessions_rx h0) hsm hrun
  rw [← hp]
  exact c106_none_left_out a U.S hD hdecl hh hs (s := u.abs) (fun l' hl' => by
    obtain ⟨l, hl, h⟩ := hst l' hl'
    exact stands_usedR h (hu l hl)) (hnr hfit) hr

/-- C106 over a USB cable: and everything is given once all has been sent and taken. -/
theorem c106_usb_complete (a : App V E SC Ctx) (U : UsbCfg V E SC Ctx) (hU : UsbSound U) (hD : define_dispatch a = .ok U.S.disp)
    (hdecl : Declared a U.S.kkind) (hh : Hears U.S) {es : List (UsbSys V E SC Ctx)} {u0 : UsbSys V E SC Ctx}
    (h0 : UsbSessions a U DevIdle es u0) {ls : List (ULabel V)} {u : UsbSys V E SC Ctx} (hu : ∀ l ∈ ls, UsbUsedRaw a l)
    (hrun : u_run U ls u0 = some u) (hsm : Small U.S u.sys) (hfit : RequestsFit U u.sys) (hout : u.sys.client.out_pc ≠ .exited)
    (hq : u.sys.client.outq = []) (ht : u.sys.taken = u.sys.client.tx.length) :
    toHandlers (u.sys.srv.log.drop u0.sys.srv.log.length) = (usbPublishedOk U ls u0).filterMap (says a) := by
  obtain ⟨i, hs⟩ := usb_sessions hU h0
  obtain ⟨_, _, ls', hr, hst, hp, hnr⟩ := sim_published hU i (fun _ => usb_sessions_rx h0) hsm hrun
  rw [← hp]
  exact c106_complete a U.S hD hdecl hh hs (s := u.abs) (fun l' hl' => by
    obtain ⟨l, hl, h⟩ := hst l' hl'
    exact stands_usedR h (hu l hl)) (hnr hfit) hr hout hq ht

theorem u_run_then {U : UsbCfg V E SC Ctx} {ls ks : List (ULabel V)} : ∀ {u v w : UsbSys V E SC Ctx}, u_run U ls u = some v →
    u_run U ks v = some w → u_run U (ls ++ ks) u = some w := by
  induction ls with
  | nil => intro u v w h h'; cases h; exact h'
  | cons l ls ih =>
    intro u v w h h'
    simp only [u_run, List.cons_append] at h ⊢
    split at h
    · rename_i x hx; exact ih h h'
    · cases h

theorem usb_own_run_used {a : App V E SC Ctx} {U : UsbCfg V E SC Ctx} {u v : UsbSys V E SC Ctx} {own : List (ULabel V)}
    (h : UsbOwnRun U u own v) : ∀ l ∈ own, UsbUsed a l := by
  induction h with
  | nil u => simp
  | cons ho _ _ ih => exact fun l hl => (List.mem_cons.mp hl).elim (fun e => e ▸ (usb_own_used ho).1) (ih l)

/-- C106 over a USB cable: left to itself the system gets there. -/
theorem c106_usb_comes_through (a : App V E SC Ctx) (U : UsbCfg V E SC Ctx) (hU : UsbSound U) (hD : define_dispatch a = .ok U.S.disp)
    (hdecl : Declared a U.S.kkind) (hF : Fits a U.S) (hdepth : 0 < U.S.cfg.outgoing_depth) (hh : Hears U.S)
    {es : List (UsbSys V E SC Ctx)} {u0 : UsbSys V E SC Ctx} (h0 : UsbSessions a U DevIdle es u0)
    {ls : List (ULabel V)} {u : UsbSys V E SC Ctx} (hu : ∀ l ∈ ls, UsbUsedRaw a l) (hl : ∀ l ∈ ls, UsbListens a l)
    (hrun : u_run U ls u0 = some u) (hn : (numbers u.sys.client).Nodup) (hopen : Open u.sys) :
    ∀ {own : List (ULabel V)} {v : UsbSys V E SC Ctx}, UsbOwnRun U u own v → Small U.S v.sys → RequestsFit U v.sys → UsbStuck U v →
      (∀ p ∈ v.sys.client.pubs, ∃ r, p.res = some r) ∧
      toHandlers (v.sys.srv.log.drop u0.sys.srv.log.length) = (usbPublishedOk U (ls ++ own) u0).filterMap (says a) := by
  intro own v ho hsm hfit hst
  obtain ⟨hrest, _⟩ := (c100_usb_answered a U hU hD hdecl hF hdepth h0 hu hl hrun hn hopen).2 ho hsm hfit hst
  refine ⟨hrest.sys.client.pubs, c106_usb_complete a U hU hD hdecl hh h0 (fun l h => ?_) (u_run_then hrun (usb_own_run ho)) hsm hfit
    (by rw [hrest.sys.client.out.1]; exact fun e => nomatch e) hrest.sys.client.out.2 hrest.sys.taken⟩
  exact (List.mem_append.mp h).elim (hu l) fun h => usb_used_raw (usb_own_run_used ho l h)

/-- C106 over a USB cable: all that was published before a call that has returned its reply was given. -/
theorem c106_usb_before_reply (a : App V E SC Ctx) (U : UsbCfg V E SC Ctx) (hU : UsbSound U) (hD : define_dispatch a = .ok U.S.disp)
    (hdecl : Declared a U.S.kkind) (hapart : KeysApart a U.S)
    (hdist : ∀ r ∈ a.endpoint_list.endpoints, short (keyLen U.S.kkind) r.resp ≠ short (keyLen U.S.kkind) a.std.error)
    (hh : Hears U.S) {ls ls' : List (ULabel V)} {c0 : Ctx} {u u' : UsbSys V E SC Ctx} (hu : ∀ l ∈ ls, UsbUsed a l)
    (hu' : ∀ l ∈ ls', UsbUsed a l) (hrun : u_run U ls (UsbSys.new c0) = some u) (hrun' : u_run U ls' u = some u')
    (hsm : Small U.S u'.sys) (hfit : RequestsFit U u'.sys) (hlen : u'.sys.client.calls.length < 2 ^ 32) {c : Nat} {cl : Call}
    {f : RpcFrame} {i : Nat} (hc : u.sys.client.calls.length ≤ c) (hcl : u'.sys.client.calls[c]? = some cl)
    (hres : result cl = some (false, f, i)) :
    (usbPublishedOk U ls (UsbSys.new c0)).filterMap (says a) <+: toHandlers u'.sys.srv.log := by
  have hfit1 := fit_before hfit (u_run_grows hrun').2
  obtain ⟨inv, hrx, ls1, hr1, hst1, hp1, hn1⟩ := sim_published hU (usbInv_new U.S c0) (fun _ => fun e => nomatch e)
    (small_before hsm (u_run_grows hrun').1) hrun
  obtain ⟨_, _, ls2, hr2, hst2, _, hn2⟩ := sim_published hU inv (fun _ => hrx hfit1) hsm hrun'
  rw [← hp1]
  exact c106_before_reply a U.S hD hdecl hapart hdist hh (s := u.abs) (s' := u'.abs) (fun l' hl' => by
    obtain ⟨l, hl, h⟩ := hst1 l' hl'
    exact stands_used h (hu l hl)) (fun l' hl' => by
    obtain ⟨l, hl, h⟩ := hst2 l' hl'
    exact stands_used h (hu' l hl)) (fun l hl => (List.mem_append.mp hl).elim (hn1 hfit1 l) (hn2 hfit l)) hr1 hr2 hlen hc hcl hres

/-! ### A concrete case -/

/-- Publishing a message and sending it. -/
def sysPublish (p : Nat) (key : Byte) (n : BitVec 32) (body : Bytes) : List (SLabel Nat) :=
  [.client (.pub_begin ⟨⟨.Key8 (exKey key), .Seq4 n⟩, body⟩), .client (.pub_send p)] ++ sysSend

/-- Four messages: to a blocking handler, to a topic without handler, one that cannot be decoded, and to a spawned handler. -/
def exPublished : List (SLabel Nat) :=
  sysPublish 0 6#8 0 [7] ++ sysPublish 1 8#8 1 [1] ++ [.serve] ++ sysPublish 2 6#8 2 [1, 2] ++ sysPublish 3 7#8 3 [9]

/-- Then a call that returns its reply. -/
def exPublished' : List (SLabel Nat) :=
  sysCall 0 3#8 0x83#8 [7] ++ sysSend ++ [.serve, .flush, .serve, .serve, .flush, .serve, .flush] ++
  sysRecv [0x20, 0xE0, 1, 0, 0, 0, 0xEE] none ++ sysRecv [0x20, 0x95, 3, 0, 0, 0, 9] none ++
  sysRecv [0x20, 0x83, 0, 0, 0, 0, 15] (some ⟨0, false⟩) ++ [.client (.call_ok 0)]

set_option synthInstance.maxSize 1000 in
theorem exPublished_result : ((sys_run exSys exPublished (Sys.new 0)).bind fun s => (sys_run exSys exPublished' s).map fun s' =>
      ((s.client.calls.length, toHandlers s.srv.log), toHandlers s'.srv.log,
        (s'.client.out_pc, s'.client.outq, s'.taken, s'.client.tx.length), s'.client.calls.map result)) =
    some ((0, [(20, .Seq4 0, 7)]), [(20, .Seq4 0, 7), (21, .Seq4 3, 9)], (.recv, [], 5, 5),
      [some (false, ⟨⟨.Key1 ⟨0x83⟩, .Seq4 0⟩, [15]⟩, 2)]) := by
  decide +kernel

set_option synthInstance.maxSize 1000 in
theorem exPublished_ok : (publishedOk exSys exPublished (Sys.new 0)).map (·.body) = [[7], [1], [1, 2], [9]] ∧
    (publishedOk exSys exPublished (Sys.new 0)).filterMap (says exSysApp) = [(20, .Seq4 0, 7), (21, .Seq4 3, 9)] ∧
    (publishedOk exSys (exPublished ++ exPublished') (Sys.new 0)).filterMap (says exSysApp) = [(20, .Seq4 0, 7), (21, .Seq4 3, 9)] := by
  decide +kernel

theorem exSys_hears : Hears exSys := ⟨fun _ _ => rfl, by decide⟩

/-- The theorems apply: two messages say something, and when the call has returned the handlers have been given both. -/
example : define_dispatch exSysApp = .ok exSys.disp ∧ Declared exSysApp exSys.kkind ∧ KeysApart exSysApp exSys ∧ Hears exSys ∧
    (∀ r ∈ exSysApp.endpoint_list.endpoints, short (keyLen exSys.kkind) r.resp ≠ short (keyLen exSys.kkind) exSysApp.std.error) ∧
    Sessions exSysApp exSys [] (Sys.new 0) ∧ (∀ l ∈ exPublished ++ exPublished', Used exSysApp l ∧ UsedRaw exSysApp l ∧ l ≠ .reject) ∧
    ∃ s s', sys_run exSys exPublished (Sys.new 0) = some s ∧ sys_run exSys exPublished' s = some s' ∧
      s'.client.out_pc ≠ .exited ∧ s'.client.outq = [] ∧ s'.taken = s'.client.tx.length ∧ s'.client.calls.length < 2 ^ 32 ∧
      s.client.calls.length ≤ 0 ∧
      ∃ cl, s'.client.calls[0]? = some cl ∧ result cl = some (false, ⟨⟨.Key1 ⟨0x83⟩, .Seq4 0⟩, [15]⟩, 2) := by
  have hu : ∀ l ∈ exPublished ++ exPublished', Used exSysApp l := by decide
  refine ⟨exSysApp_ok, exSysApp_declared, exSysApp_apart, exSys_hears, by decide, .first 0,
    fun l hl => ⟨hu l hl, used_raw (hu l hl), ?_⟩, ?_⟩
  · intro e
    subst e
    have : (exPublished ++ exPublished').any (fun l => match l with | .reject => true | _ => false) = true :=
      List.any_eq_true.mpr ⟨_, hl, rfl⟩
    exact absurd this (by decide)
  obtain ⟨s, e1, e2⟩ := Option.bind_eq_some_iff.mp exPublished_result
  obtain ⟨s', e3, e4⟩ := Option.map_eq_some_iff.mp e2
  simp only [Prod.mk.injEq] at e4
  obtain ⟨⟨h1, _⟩, _, ⟨h2, h3, h4, h5⟩, h6⟩ := e4
  have hl : s'.client.calls.length = 1 := by simpa using congrArg List.length h6
  refine ⟨s, s', e1, e3, by rw [h2]; decide, h3, by omega, by omega, by omega, ?_⟩
  have h7 : (s'.client.calls.map result)[0]? = some (some (false, ⟨⟨.Key1 ⟨0x83⟩, .Seq4 0⟩, [15]⟩, 2)) := by rw [h6]; rfl
  rw [List.getElem?_map] at h7
  exact Option.map_eq_some_iff.mp h7

/-- So does the one on a system left to itself: nothing of what was published is served yet, and it comes to rest. -/
example : Fits exSysApp exSys ∧ 0 < exSys.cfg.outgoing_depth ∧ (∀ l ∈ exPublished, Listens exSysApp l) ∧
    ∃ s, sys_run exSys exPublished (Sys.new 0) = some s ∧ (numbers s.client).Nodup ∧ Open s ∧ s.taken = 1 ∧ s.client.tx.length = 4 ∧
      ∃ own t, SysOwnRun exSys s own t ∧ SysStuck exSys t := by
  have hl : ∀ l ∈ exPublished, Listens exSysApp l := by decide
  have hu : ∀ l ∈ exPublished, Used exSysApp l := by decide
  have e : (sys_run exSys exPublished (Sys.new 0)).map (fun s =>
      (numbers s.client, s.client.stopped, s.client.handles, s.taken, s.client.tx.length)) =
      some ([], false, true, 1, 4) := by decide +kernel
  obtain ⟨s, e1, e2⟩ := Option.map_eq_some_iff.mp e
  simp only [Prod.mk.injEq] at e2
  have hn : (numbers s.client).Nodup := by rw [e2.1]; exact .nil
  obtain ⟨own, t, h1, h2, _⟩ := (c100_answered exSysApp exSys exSysApp_ok exSysApp_declared exSys_fits (by decide) (.first 0)
    (fun l h => used_raw (hu l h)) hl e1 hn ⟨e2.2.1, e2.2.2.1⟩).2 (.nil s)
  exact ⟨exSys_fits, by decide, hl, s, e1, hn, ⟨e2.2.1, e2.2.2.1⟩, e2.2.2.2.1, e2.2.2.2.2, own, t, h1, h2⟩

/-- A message that the server's receive buffer has no room for. -/
def exUnheard : List (SLabel Nat) := sysPublish 0 6#8 0 [7] ++ [.reject]

/-- C106 needs that no message is too large: `publish` has returned `Ok`, the server has taken the message, no handler was given it. -/
theorem c106_too_large_unheard : (∀ l ∈ exUnheard, Used exSysApp l) ∧
    (publishedOk exSys exUnheard (Sys.new 0)).filterMap (says exSysApp) = [(20, .Seq4 0, 7)] ∧
    (sys_run exSys exUnheard (Sys.new 0)).map (fun s => (toHandlers s.srv.log, s.client.outq, s.taken, s.client.tx.length)) =
      some ([], [], 1, 1) :=
  ⟨by decide, by decide +kernel, by decide +kernel⟩

/-- Publishing a message that takes one packet. -/
def usbPublish (p : Nat) (key : Byte) (n : BitVec 32) (body : Bytes) : List (ULabel Nat) :=
  [.client (.pub_begin ⟨⟨.Key8 (exKey key), .Seq4 n⟩, body⟩), .client (.pub_send p), .client .out_poll, .client .out_recv, .host_packet,
    .client (.out_done true), .client .out_yield]

/-- Two messages over the cable. -/
def exUsbPublished : List (ULabel Nat) := usbPublish 0 6#8 0 [7] ++ [.dev_read] ++ usbPublish 1 7#8 1 [9]

/-- Then a call that returns its reply. -/
def exUsbPublished' : List (ULabel Nat) :=
  usbCall 0 3#8 0x83#8 [7] ++ [.client .out_poll, .client .out_recv, .dev_read, .flush, .dev_write .ok, .host_packet,
    .client (.out_done true), .client .out_yield, .dev_write .ok, .dev_read, .flush, .dev_write .ok, .dev_write .ok] ++
  usbRecv ([0x20, 0x95, 1, 0, 0, 0] ++ List.replicate 70 9) none ++
  usbRecv ([0x20, 0x83, 0, 0, 0, 0] ++ List.replicate 70 15) (some ⟨0, false⟩) ++ [.client (.call_ok 0)]

set_option synthInstance.maxSize 1000 in
theorem exUsbPublished_result : ((u_run exUsb exUsbPublished (UsbSys.new 0)).bind fun u => (u_run exUsb exUsbPublished' u).map fun u' =>
      ((u.sys.client.calls.length, toHandlers u.sys.srv.log), toHandlers u'.sys.srv.log,
        (u'.sys.client.out_pc, u'.sys.client.outq, u'.sys.taken, u'.sys.client.tx.map List.length), u'.sys.client.calls.map result)) =
    some ((0, [(20, .Seq4 0, 7)]), [(20, .Seq4 0, 7), (21, .Seq4 1, 9)], (.recv, [], 3, [14, 14, 14]),
      [some (false, ⟨⟨.Key1 ⟨0x83⟩, .Seq4 0⟩, List.replicate 70 15⟩, 1)]) := by
  decide +kernel

set_option synthInstance.maxSize 1000 in
theorem exUsbPublished_ok :
    (usbPublishedOk exUsb exUsbPublished (UsbSys.new 0)).filterMap (says exSysApp) = [(20, .Seq4 0, 7), (21, .Seq4 1, 9)] ∧
    (usbPublishedOk exUsb (exUsbPublished ++ exUsbPublished') (UsbSys.new 0)).filterMap (says exSysApp) =
      [(20, .Seq4 0, 7), (21, .Seq4 1, 9)] := by
  decide +kernel

/-- The theorems on the cable apply. -/
example : UsbSound exUsb ∧ define_dispatch exSysApp = .ok exUsb.S.disp ∧ Declared exSysApp exUsb.S.kkind ∧ KeysApart exSysApp exUsb.S ∧
    (∀ r ∈ exSysApp.endpoint_list.endpoints, short (keyLen exUsb.S.kkind) r.resp ≠ short (keyLen exUsb.S.kkind) exSysApp.std.error) ∧
    Hears exUsb.S ∧ UsbSessions exSysApp exUsb DevIdle [] (UsbSys.new 0) ∧
    (∀ l ∈ exUsbPublished ++ exUsbPublished', UsbUsed exSysApp l ∧ UsbUsedRaw exSysApp l) ∧
    ∃ u u', u_run exUsb exUsbPublished (UsbSys.new 0) = some u ∧ u_run exUsb exUsbPublished' u = some u' ∧ Small exUsb.S u'.sys ∧
      RequestsFit exUsb u'.sys ∧ u'.sys.client.out_pc ≠ .exited ∧ u'.sys.client.outq = [] ∧
      u'.sys.taken = u'.sys.client.tx.length ∧ u'.sys.client.calls.length < 2 ^ 32 ∧ u.sys.client.calls.length ≤ 0 ∧
      ∃ cl, u'.sys.client.calls[0]? = some cl ∧ result cl = some (false, ⟨⟨.Key1 ⟨0x83⟩, .Seq4 0⟩, List.replicate 70 15⟩, 1) := by
  have hu : ∀ l ∈ exUsbPublished ++ exUsbPublished', UsbUsed exSysApp l := by decide
  refine ⟨exUsb_sound, exSysApp_ok, exSysApp_declared, exSysApp_apart, by decide, ⟨fun _ _ => rfl, by decide⟩, .first 0,
    fun l hl => ⟨hu l hl, usb_used_raw (hu l hl)⟩, ?_⟩
  obtain ⟨u, e1, e2⟩ := Option.bind_eq_some_iff.mp exUsbPublished_result
  obtain ⟨u', e3, e4⟩ := Option.map_eq_some_iff.mp e2
  simp only [Prod.mk.injEq] at e4
  obtain ⟨⟨h1, _⟩, _, ⟨h2, h3, h4, h5⟩, h6⟩ := e4
  have hl : u'.sys.client.calls.length = 1 := by simpa using congrArg List.length h6
  have ht : u'.sys.client.tx.length = 3 := by simpa using congrArg List.length h5
  refine ⟨u, u', e1, e3, exUsb_small _, ?_, by rw [h2]; decide, h3, by omega, by omega, by omega, ?_⟩
  · intro b hb
    have : b.length ∈ u'.sys.client.tx.map List.length := List.mem_map.mpr ⟨b, hb, rfl⟩
    rw [h5] at this
    simp only [List.mem_cons, List.not_mem_nil, or_false, or_self] at this
    rw [this]
    decide
  have h7 : (u'.sys.client.calls.map result)[0]? = some (some (false, ⟨⟨.Key1 ⟨0x83⟩, .Seq4 0⟩, List.replicate 70 15⟩, 1)) := by
    rw [h6]; rfl
  rw [List.getElem?_map] at h7
  exact Option.map_eq_some_iff.mp h7

/-- So does the one on a system left to itself. -/
example : Fits exSysApp exUsb.S ∧ 0 < exUsb.S.cfg.outgoing_depth ∧ (∀ l ∈ exUsbPublished, UsbListens exSysApp l) ∧
    ∃ u, u_run exUsb exUsbPublished (UsbSys.new 0) = some u ∧ (numbers u.sys.client).Nodup ∧ Open u.sys ∧
      u.sys.taken = 1 ∧ u.sys.client.tx.length = 2 := by
  have e : (u_run exUsb exUsbPublished (UsbSys.new 0)).map (fun u => (numbers u.sys.client, u.sys.client.stopped, u.sys.client.handles,
      u.sys.taken, u.sys.client.tx.length)) = some ([], false, true, 1, 2) := by decide +kernel
  obtain ⟨u, e1, e2⟩ := Option.map_eq_some_iff.mp e
  simp only [Prod.mk.injEq] at e2
  exact ⟨exUsb_fits, by decide, by decide, u, e1, by rw [e2.1]; exact .nil, ⟨e2.2.1, e2.2.2.1⟩, e2.2.2.2.1, e2.2.2.2.2⟩

end PRpc.Props
