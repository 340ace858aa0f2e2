import Verif.Lemmas.Linear
import Verif.Props.UsbSys
/-! C88: the requests of a client take effect one after the other, each at most once, in an order that respects real time. -/

namespace PRpc.Props

open Spec

variable {V E SC Ctx : Type}

/-- C88: the server gets the request of a call at most once. -/
theorem c88_once (a : App V E SC Ctx) (S : SysCfg V E SC Ctx) (hD : define_dispatch a = .ok S.disp)
    {ls : List (SLabel V)} {c0 : Ctx} {s : Sys V E SC Ctx} (hu : ∀ l ∈ ls, Used a l) (hrun : sys_run S ls (Sys.new c0) = some s)
    (hlen : s.client.calls.length < 2 ^ 32) {c j j' : Nat} (h : AskedAt S.disp s c j) (h' : AskedAt S.disp s c j') : j = j' :=
  asked_once hD (sys_run_inv hrun hu (sysInv_new a S c0)) hlen h h'

/-- C88: the context starts as it was given, each byte string the server receives turns it into what its handler makes of it, and
nothing else changes it. -/
theorem c88_contexts (S : SysCfg V E SC Ctx) {ls : List (SLabel V)} {c0 : Ctx} {s : Sys V E SC Ctx}
    (hrun : sys_run S ls (Sys.new c0) = some s) :
    (contexts s).length = s.taken + 1 ∧ (contexts s)[0]? = some c0 ∧
    ∀ j, j < s.taken → ∃ ctx ctx', (contexts s)[j]? = some ctx ∧ (contexts s)[j + 1]? = some ctx' ∧ Effect S.disp s j ctx ctx' := by
  have inv := sys_run_ctxInv hrun (ctxInv_new c0 S)
  exact ⟨by unfold contexts; rw [List.length_append, inv.len]; rfl, inv.first, inv.chain⟩

/-- C88: a call that returned a reply returned (a beginning of) what the handler of its endpoint gives for its request in the
context the byte strings before it have left, and what the handler leaves is the context of those after it. -/
theorem c88_applied (a : App V E SC Ctx) (S : SysCfg V E SC Ctx) (hD : define_dispatch a = .ok S.disp)
    (hdecl : Declared a S.kkind) (hapart : KeysApart a S)
    (hdist : ∀ r ∈ a.endpoint_list.endpoints, short (keyLen S.kkind) r.resp ≠ short (keyLen S.kkind) a.std.error)
    {ls : List (SLabel V)} {c0 : Ctx} {s : Sys V E SC Ctx} (hu : ∀ l ∈ ls, Used a l) (hrun : sys_run S ls (Sys.new c0) = some s)
    (hlen : s.client.calls.length < 2 ^ 32) {c : Nat} {cl : Call} {f : RpcFrame} {i : Nat}
    (hc : s.client.calls[c]? = some cl) (hres : result cl = some (false, f, i)) :
    ∃ o ∈ s.outs, ∃ j hdr, CarriesPart S.enc o f ∧ RequestOf s c cl j hdr ∧ AskedAt S.disp s c j ∧
      Applied S.disp s j hdr cl.rqst.body o.frame := by
  obtain ⟨o, ho, j, hdr, req, h1, h2, h3, h4⟩ := c74_reply_begins a S hD hdecl hapart hdist hu hrun hlen hc hres
  obtain ⟨b, hb, hf⟩ := h2.sent
  exact ⟨o, ho, j, hdr, h1, h2, reply_asked h2 h3 h4, reply_applied (sys_run_ctxInv hrun (ctxInv_new c0 S)) hb hf ho h4⟩

/-- C88: a call begun after another one has returned its reply takes effect after it. -/
theorem c88_real_time (a : App V E SC Ctx) (S : SysCfg V E SC Ctx) (hD : define_dispatch a = .ok S.disp)
    (hdecl : Declared a S.kkind) (hapart : KeysApart a S)
    (hdist : ∀ r ∈ a.endpoint_list.endpoints, short (keyLen S.kkind) r.resp ≠ short (keyLen S.kkind) a.std.error)
    {ls ls' : List (SLabel V)} {c0 : Ctx} {s s' : Sys V E SC Ctx} (hu : ∀ l ∈ ls, Used a l) (hu' : ∀ l ∈ ls', Used a l)
    (hrun : sys_run S ls (Sys.new c0) = some s) (hrun' : sys_run S ls' s = some s') (hlen : s'.client.calls.length < 2 ^ 32)
    {c c' j j' : Nat} {cl : Call} {f : RpcFrame} {i : Nat} (hc : s.client.calls[c]? = some cl) (hres : result cl = some (false, f, i))
    (hc' : s.client.calls.length ≤ c') (h : AskedAt S.disp s' c j) (h' : AskedAt S.disp s' c' j') : j < j' := by
  have inv := sys_run_inv hrun hu (sysInv_new a S c0)
  have inv' := sys_run_inv hrun' hu' inv
  have hl := sys_run_later hrun'
  have hle : s.client.calls.length ≤ s'.client.calls.length := by
    rcases Nat.eq_zero_or_pos s.client.calls.length with h | h
    · omega
    · obtain ⟨cl', hc, _⟩ := hl.calls (s.client.calls.length - 1) _ (List.getElem?_eq_getElem (by omega))
      have := getElem?_lt hc
      omega
  obtain ⟨o, ho, j0, hdr, req, h1, h2, h3, h4⟩ := c74_reply_begins a S hD hdecl hapart hdist hu hrun (by omega) hc hres
  have e := asked_once hD inv' hlen h (asked_later hl (reply_asked h2 h3 h4))
  obtain ⟨b, hb, _⟩ := h2.sent
  have := getElem?_lt hb
  have := asked_after hD hdecl inv inv' hlen hl hc' h'
  omega

/-! ### Over a USB cable -/

theorem effect_abs {D : Dispatcher V E SC Ctx} {u : UsbSys V E SC Ctx} {j : Nat} {ctx ctx' : Ctx} (h : Effect D u.abs j ctx ctx') :
    Effect D u.sys j ctx ctx' := by
  cases h with
  | handled b hdr body sends ctx' h1 h2 h3 => exact .handled b hdr body sends ctx' h1 h2 h3
  | dropped h1 h2 => exact .dropped h1 h2

theorem applied_abs {D : Dispatcher V E SC Ctx} {u : UsbSys V E SC Ctx} {j : Nat} {hdr : VarHeader} {body : Bytes} {fr : Frame V}
    (h : Applied D u.abs j hdr body fr) : Applied D u.sys j hdr body fr := by
  cases h with
  | called h g v ctx h1 h2 h3 h4 h5 h6 => exact .called h g v ctx h1 h2 h3 h4 h5 h6
  | spawned h v w i sc ctx h1 h2 h3 h4 h5 h6 h7 => exact .spawned h v w i sc ctx h1 h2 h3 h4 h5 h6 h7
  | ping v ctx h1 h2 h3 h4 h5 => exact .ping v ctx h1 h2 h3 h4 h5
  | schemas t ctx h1 h2 h3 h4 => exact .schemas t ctx h1 h2 h3 h4

/-- C88, the server gets a request at most once, over a USB cable. -/
theorem c88_usb_once (a : App V E SC Ctx) (U : UsbCfg V E SC Ctx) (hU : UsbSound U) (hD : define_dispatch a = .ok U.S.disp)
    {ls : List (ULabel V)} {c0 : Ctx} {u : UsbSys V E SC Ctx} (hu : ∀ l ∈ ls, UsbUsed a l)
    (hrun : u_run U ls (UsbSys.new c0) = some u) (hsm : Small U.S u.sys) (hlen : u.sys.client.calls.length < 2 ^ 32) {c j j' : Nat}
    (h : AskedAt U.S.disp u.sys c j) (h' : AskedAt U.S.disp u.sys c j') : j = j' := by
  obtain ⟨_, ls', hr, hst⟩ := sim_run hU.buffer hU.some_buffer (usbInv_new U.S c0) hsm hrun
  exact c88_once a U.S hD (s := u.abs) (fun l' hl' => by
    obtain ⟨l, hl, h⟩ := hst l' hl'
    exact stands_used h (hu l hl)) hr hlen ⟨h.asked⟩ ⟨h'.asked⟩

/-- C88, what the context goes through, over a USB cable. -/
theorem c88_usb_contexts (U : UsbCfg V E SC Ctx) (hU : UsbSound U) {ls : List (ULabel V)} {c0 : Ctx} {u : UsbSys V E SC Ctx}
    (hrun : u_run U ls (UsbSys.new c0) = some u) (hsm : Small U.S u.sys) :
    (contexts u.sys).length = u.sys.taken + 1 ∧ (contexts u.sys)[0]? = some c0 ∧
    ∀ j, j < u.sys.taken → ∃ ctx ctx', (contexts u.sys)[j]? = some ctx ∧ (contexts u.sys)[j + 1]? = some ctx' ∧
      Effect U.S.disp u.sys j ctx ctx' := by
  obtain ⟨_, ls', hr, hst⟩ := sim_run hU.buffer hU.some_buffer (usbInv_new U.S c0) hsm hrun
  obtain ⟨h1, h2, h3⟩ := c88_contexts U.S (s := u.abs) hr
  refine ⟨h1, h2, fun j hj => ?_⟩
  obtain ⟨ctx, ctx', g1, g2, g3⟩ := h3 j hj
  exact ⟨ctx, ctx', g1, g2, effect_abs g3⟩

/-- C88, in which context replies are given, over a USB cable. -/
theorem c88_usb_applied (a : App V E SC Ctx) (U : UsbCfg V E SC Ctx) (hU : UsbSound U) (hD : define_dispatch a = .ok U.S.disp)
    (hdecl : Declared a U.S.kkind) (hapart : KeysApart a U.S)
    (hdist : ∀ r ∈ a.endpoint_list.endpoints, short (keyLen U.S.kkind) r.resp ≠ short (keyLen U.S.kkind) a.std.error)
    {ls : List (ULabel V)} {c0 : Ctx} {u : UsbSys V E SC Ctx} (hu : ∀ l ∈ ls, UsbUsed a l)
    (hrun : u_run U ls (UsbSys.new c0) = some u) (hsm : Small U.S u.sys) (hlen : u.sys.client.calls.length < 2 ^ 32)
    {c : Nat} {cl : Call} {f : RpcFrame} {i : Nat} (hc : u.sys.client.calls[c]? = some cl) (hres : result cl = some (false, f, i)) :
    ∃ o ∈ u.sys.outs, ∃ j hdr, CarriesPart U.S.enc o f ∧ RequestOf u.sys c cl j hdr ∧ AskedAt U.S.disp u.sys c j ∧
      Applied U.S.disp u.sys j hdr cl.rqst.body o.frame := by
  obtain ⟨_, ls', hr, hst⟩ := sim_run hU.buffer hU.some_buffer (usbInv_new U.S c0) hsm hrun
  obtain ⟨o, ho, j, hdr, h1, h2, h3, h4⟩ := c88_applied a U.S hD hdecl hapart hdist (s := u.abs) (fun l' hl' => by
    obtain ⟨l, hl, h⟩ := hst l' hl'
    exact stands_used h (hu l hl)) hr hlen hc hres
  exact ⟨o, ho, j, hdr, h1, request_abs h2, ⟨h3.asked⟩, applied_abs h4⟩

/-- C88, real time, over a USB cable. -/
theorem c88_usb_real_time (a : App V E SC Ctx) (U : UsbCfg V E SC Ctx) (hU : UsbSound U) (hD : define_dispatch a = .ok U.S.disp)
    (hdecl : Declared a U.S.kkind) (hapart : KeysApart a U.S)
    (hdist : ∀ r ∈ a.endpoint_list.endpoints, short (keyLen U.S.kkind) r.resp ≠ short (keyLen U.S.kkind) a.std.error)
    {ls ls' : List (ULabel V)} {c0 : Ctx} {u u' : UsbSys V E SC Ctx} (hu : ∀ l ∈ ls, UsbUsed a l) (hu' : ∀ l ∈ ls', UsbUsed a l)
    (hrun : u_run U ls (UsbSys.new c0) = some u) (hrun' : u_run U ls' u = some u') (hsm : Small U.S u'.sys)
    (hlen : u'.sys.client.calls.length < 2 ^ 32)
    {c c' j j' : Nat} {cl : Call} {f : RpcFrame} {i : Nat} (hc : u.sys.client.calls[c]? = some cl) (hres : result cl = some (false, f, i))
    (hc' : u.sys.client.calls.length ≤ c') (h : AskedAt U.S.disp u'.sys c j) (h' : AskedAt U.S.disp u'.sys c' j') : j < j' := by
  obtain ⟨inv, ls1, hr1, hst1⟩ := sim_run hU.buffer hU.some_buffer (usbInv_new U.S c0) (small_before hsm (u_run_grows hrun').1) hrun
  obtain ⟨_, ls2, hr2, hst2⟩ := sim_run hU.buffer hU.some_buffer inv hsm hrun'
  exact c88_real_time a U.S hD hdecl hapart hdist (s := u.abs) (s' := u'.abs) (fun l' hl' => by
    obtain ⟨l, hl, h⟩ := hst1 l' hl'
    exact stands_used h (hu l hl)) (fun l' hl' => by
    obtain ⟨l, hl, h⟩ := hst2 l' hl'
    exact stands_used h (hu' l hl)) hr1 hr2 hlen hc hres hc' ⟨h.asked⟩ ⟨h'.asked⟩

/-! ### A concrete case -/

/-- A call of the blocking endpoint that returns its reply. -/
def exOrder : List (SLabel Nat) :=
  sysCall 0 3#8 0x83#8 [7] ++ sysSend ++ [.serve, .flush] ++ sysRecv [0x20, 0x83, 0, 0, 0, 0, 7] (some ⟨0, false⟩) ++ [.client (.call_ok 0)]

/-- Two calls after it, the first of the same endpoint. -/
def exOrder' : List (SLabel Nat) :=
  sysCall 1 3#8 0x83#8 [5] ++ sysCall 2 4#8 0x84#8 [6] ++ sysSend ++ sysSend ++ [.serve, .flush, .serve, .flush] ++
  sysRecv [0x20, 0x83, 1, 0, 0, 0, 6] (some ⟨1, false⟩) ++ [.client (.call_ok 1)]

set_option synthInstance.maxSize 1000 in
/-- The handler adds the context to its argument and counts in the context; the second reply is 5 + 1. -/
theorem exOrder_result : ((sys_run exSys exOrder (Sys.new 0)).bind fun s => (sys_run exSys exOrder' s).map fun s' =>
      ((s.client.calls.length, (s.client.calls.map result)[0]?), contexts s', s'.client.calls.map result,
        s'.client.calls.map (·.rqst), s'.client.tx)) =
    some ((1, some (some (false, ⟨⟨.Key1 ⟨0x83⟩, .Seq4 0⟩, [7]⟩, 0))), [0, 1, 2, 12],
      [some (false, ⟨⟨.Key1 ⟨0x83⟩, .Seq4 0⟩, [7]⟩, 0), some (false, ⟨⟨.Key1 ⟨0x83⟩, .Seq4 1⟩, [6]⟩, 1), none],
      [⟨⟨.Key8 (exKey 3), .Seq4 0⟩, [7]⟩, ⟨⟨.Key8 (exKey 3), .Seq4 1⟩, [5]⟩, ⟨⟨.Key8 (exKey 4), .Seq4 2⟩, [6]⟩],
      [[0xE0, 3, 0, 0, 0, 0, 0, 0, 0, 0, 0, 0, 0, 7], [0x20, 3, 1, 0, 0, 0, 5], [0x20, 4, 2, 0, 0, 0, 6]]) := by
  decide +kernel

/-- The theorems apply: the first call returned before the second was begun, and both requests were received. -/
example : define_dispatch exSysApp = .ok exSys.disp ∧ Declared exSysApp exSys.kkind ∧ KeysApart exSysApp exSys ∧
    (∀ r ∈ exSysApp.endpoint_list.endpoints, short (keyLen exSys.kkind) r.resp ≠ short (keyLen exSys.kkind) exSysApp.std.error) ∧
    (∀ l ∈ exOrder ++ exOrder', Used exSysApp l) ∧ ∃ s s', sys_run exSys exOrder (Sys.new 0) = some s ∧ sys_run exSys exOrder' s = some s' ∧
      s'.client.calls.length < 2 ^ 32 ∧
      (∃ cl, s.client.calls[0]? = some cl ∧ result cl = some (false, ⟨⟨.Key1 ⟨0x83⟩, .Seq4 0⟩, [7]⟩, 0)) ∧ s.client.calls.length ≤ 1 ∧
      AskedAt exSys.disp s' 0 0 ∧ AskedAt exSys.disp s' 1 1 := by
  refine ⟨exSysApp_ok, exSysApp_declared, exSysApp_apart, by decide, by decide, ?_⟩
  obtain ⟨s, e1, e2⟩ := Option.bind_eq_some_iff.mp exOrder_result
  obtain ⟨s', e3, e4⟩ := Option.map_eq_some_iff.mp e2
  simp only [Prod.mk.injEq] at e4
  obtain ⟨⟨h1, h2⟩, _, h3, h4, h5⟩ := e4
  have hl : s'.client.calls.length = 3 := by simpa using congrArg List.length h3
  have call : ∀ (c : Nat) (q : RpcFrame), (s'.client.calls.map (·.rqst))[c]? = some q → ∃ cl, s'.client.calls[c]? = some cl ∧ cl.rqst = q := by
    intro c q h
    rw [List.getElem?_map] at h
    exact Option.map_eq_some_iff.mp h
  refine ⟨s, s', e1, e3, by omega, ?_, by omega, ?_, ?_⟩
  · rw [List.getElem?_map] at h2
    exact Option.map_eq_some_iff.mp h2
  · obtain ⟨cl, c1, c2⟩ := call 0 ⟨⟨.Key8 (exKey 3), .Seq4 0⟩, [7]⟩ (by rw [h4]; rfl)
    exact ⟨cl, [0xE0, 3, 0, 0, 0, 0, 0, 0, 0, 0, 0, 0, 0, 7], ⟨.Key8 (exKey 3), .Seq4 0⟩, exKey 3, c1, by rw [h5]; rfl,
      by rw [c2]; exact (isFrame_iff ..).mpr rfl, by rw [c2], by rw [c2], by unfold LongEnough; decide, by decide⟩
  · obtain ⟨cl, c1, c2⟩ := call 1 ⟨⟨.Key8 (exKey 3), .Seq4 1⟩, [5]⟩ (by rw [h4]; rfl)
    exact ⟨cl, [0x20, 3, 1, 0, 0, 0, 5], ⟨.Key1 ⟨3⟩, .Seq4 1⟩, exKey 3, c1, by rw [h5]; rfl,
      by rw [c2]; exact (isFrame_iff ..).mpr rfl, by rw [c2], by rw [c2], by unfold LongEnough; decide, by decide⟩

/-- A third call after those of the run over the cable. -/
def exUsbOrder' : List (ULabel Nat) :=
  usbCall 2 3#8 0x83#8 [9] ++ [.client .out_poll, .client .out_recv, .host_packet, .dev_read]

set_option synthInstance.maxSize 1000 in
theorem exUsbOrder_result : ((u_run exUsb exUsbRun (UsbSys.new 0)).bind fun u => (u_run exUsb exUsbOrder' u).map fun u' =>
      ((u.sys.client.calls.length, (u.sys.client.calls.map result)[1]?), contexts u'.sys,
        u'.sys.client.calls.map (·.rqst), u'.sys.client.tx)) =
    some ((2, some (some (false, ⟨⟨.Key1 ⟨0x83⟩, .Seq4 1⟩, List.replicate 70 7⟩, 1))), [0, 0, 1, 2],
      [⟨⟨.Key8 (exKey 3), .Seq4 0⟩, List.replicate 51 1⟩, ⟨⟨.Key8 (exKey 3), .Seq4 1⟩, [7]⟩, ⟨⟨.Key8 (exKey 3), .Seq4 2⟩, [9]⟩],
      [[0xE0, 3, 0, 0, 0, 0, 0, 0, 0, 0, 0, 0, 0] ++ List.replicate 51 1, [0xE0, 3, 0, 0, 0, 0, 0, 0, 0, 1, 0, 0, 0, 7],
        [0x20, 3, 2, 0, 0, 0, 9]]) := by
  decide +kernel

/-- The theorems on the cable apply. -/
example : UsbSound exUsb ∧ define_dispatch exSysApp = .ok exUsb.S.disp ∧ Declared exSysApp exUsb.S.kkind ∧ KeysApart exSysApp exUsb.S ∧
    (∀ r ∈ exSysApp.endpoint_list.endpoints, short (keyLen exUsb.S.kkind) r.resp ≠ short (keyLen exUsb.S.kkind) exSysApp.std.error) ∧
    (∀ l ∈ exUsbRun ++ exUsbOrder', UsbUsed exSysApp l) ∧ ∃ u u', u_run exUsb exUsbRun (UsbSys.new 0) = some u ∧
      u_run exUsb exUsbOrder' u = some u' ∧ Small exUsb.S u'.sys ∧ u'.sys.client.calls.length < 2 ^ 32 ∧
      (∃ cl, u.sys.client.calls[1]? = some cl ∧ result cl = some (false, ⟨⟨.Key1 ⟨0x83⟩, .Seq4 1⟩, List.replicate 70 7⟩, 1)) ∧
      u.sys.client.calls.length ≤ 2 ∧ AskedAt exUsb.S.disp u'.sys 1 1 ∧ AskedAt exUsb.S.disp u'.sys 2 2 := by
  refine ⟨exUsb_sound, exSysApp_ok, exSysApp_declared, exSysApp_apart, by decide, by decide, ?_⟩
  obtain ⟨u, e1, e2⟩ := Option.bind_eq_some_iff.mp exUsbOrder_result
  obtain ⟨u', e3, e4⟩ := Option.map_eq_some_iff.mp e2
  simp only [Prod.mk.injEq] at e4
  obtain ⟨⟨h1, h2⟩, _, h4, h5⟩ := e4
  have hl : u'.sys.client.calls.length = 3 := by simpa using congrArg List.length h4
  have call : ∀ (c : Nat) (q : RpcFrame), (u'.sys.client.calls.map (·.rqst))[c]? = some q →
      ∃ cl, u'.sys.client.calls[c]? = some cl ∧ cl.rqst = q := by
    intro c q h
    rw [List.getElem?_map] at h
    exact Option.map_eq_some_iff.mp h
  refine ⟨u, u', e1, e3, exUsb_small _, by omega, ?_, by omega, ?_, ?_⟩
  · rw [List.getElem?_map] at h2
    exact Option.map_eq_some_iff.mp h2
  · obtain ⟨cl, c1, c2⟩ := call 1 ⟨⟨.Key8 (exKey 3), .Seq4 1⟩, [7]⟩ (by rw [h4]; rfl)
    exact ⟨cl, [0xE0, 3, 0, 0, 0, 0, 0, 0, 0, 1, 0, 0, 0, 7], ⟨.Key8 (exKey 3), .Seq4 1⟩, exKey 3, c1, by rw [h5]; rfl,
      by rw [c2]; exact (isFrame_iff ..).mpr rfl, by rw [c2], by rw [c2], by unfold LongEnough; decide, by decide⟩
  · obtain ⟨cl, c1, c2⟩ := call 2 ⟨⟨.Key8 (exKey 3), .Seq4 2⟩, [9]⟩ (by rw [h4]; rfl)
    exact ⟨cl, [0x20, 3, 2, 0, 0, 0, 9], ⟨.Key1 ⟨3⟩, .Seq4 2⟩, exKey 3, c1, by rw [h5]; rfl,
      by rw [c2]; exact (isFrame_iff ..).mpr rfl, by rw [c2], by rw [c2], by unfold LongEnough; decide, by decide⟩

end PRpc.Props
