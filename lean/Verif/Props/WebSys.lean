import Verif.Lemmas.WebSys
import Verif.Props.UsbNext
import Verif.Props.HostWires
/-! A client in a browser: C104. -/

namespace PRpc.Props

open Spec

variable {V E SC Ctx : Type}

/-- C104 as stated, for answers: if every message of the device fits the transfers of the browser and every request the device's
buffer, then no call is left without an answer when nothing moves any more. -/
def C104Answered : Prop :=
  ∀ (V E SC Ctx : Type) (a : App V E SC Ctx) (W : WebCfg V E SC Ctx), UsbSound W.U → define_dispatch a = .ok W.U.S.disp →
  Declared a W.U.S.kkind → Fits a W.U.S → 0 < W.U.S.cfg.outgoing_depth →
  ∀ (ls : List (ULabel V)) (c0 : Ctx) (x : WebSys V E SC Ctx), (∀ l ∈ ls, UsbUsed a l) → (∀ l ∈ ls, UsbListens a l) →
  w_run W ls (WebSys.new c0) = some x → x.u.sys.client.calls.length < 2 ^ 32 → Open x.u.sys → WebSmall W x.u.sys →
  RequestsFit W.U x.u.sys → WebStuck W x →
    ∀ cl ∈ x.u.sys.client.calls, cl.phase = .dropped ∨ ∃ err f i, result cl = some (err, f, i)

/-- C104: as long as no message of the device is longer than the transfers of the browser hold and no request fills its last packet,
a client in a browser and a device do what a client over nusb and the device could do.  Missing: requests that fill their last packet
(`c104_answered_false`). -/
theorem c104_as_cable_partial (W : WebCfg V E SC Ctx) (hU : UsbSound W.U) {ls : List (ULabel V)} {c0 : Ctx} {x : WebSys V E SC Ctx}
    (hrun : w_run W ls (WebSys.new c0) = some x) (hsm : WebSmall W x.u.sys) (hsh : WebShort x.u.sys) :
    u_run W.U ls (UsbSys.new c0) = some x.u ∧ x.babble = false := by
  obtain ⟨i, h⟩ := web_run hU (webInv_new W c0) hsm hsh hrun
  exact ⟨h, i.sound⟩

/-- C104 for replies: a reply a call in the browser returned is the one its endpoint's handler gave to this call's own request, and
what the decoder makes of it is what it makes of that.  Missing: requests that fill their last packet. -/
theorem c104_typed_reply_partial (a : App V E SC Ctx) (W : WebCfg V E SC Ctx) (hU : UsbSound W.U) (hD : define_dispatch a = .ok W.U.S.disp)
    (hdecl : Declared a W.U.S.kkind) (hapart : KeysApart a W.U.S)
    (hdist : ∀ r ∈ a.endpoint_list.endpoints, short (keyLen W.U.S.kkind) r.resp ≠ short (keyLen W.U.S.kkind) a.std.error)
    {ls : List (ULabel V)} {c0 : Ctx} {x : WebSys V E SC Ctx} (hu : ∀ l ∈ ls, UsbUsed a l)
    (hrun : w_run W ls (WebSys.new c0) = some x) (hsm : WebSmall W x.u.sys) (hsh : WebShort x.u.sys)
    (hlen : x.u.sys.client.calls.length < 2 ^ 32) {R WE : Type} (decode : Bytes → Option R) (decode_err : Bytes → Option WE)
    {c : Nat} {cl : Call} {f : RpcFrame} {i : Nat}
    (hc : x.u.sys.client.calls[c]? = some cl) (hres : cl.phase = .done (.Resp f i)) :
    ∃ o ∈ x.u.sys.outs, ∃ j hdr req, RequestOf x.u.sys c cl j hdr ∧ cl.rqst.header.key = .Key8 req ∧
      ReplyTo W.U.S.disp x.u.sys j hdr cl.rqst.body req cl.resp_key o ∧ CarriesPart W.U.S.enc o f ∧
      (RejectsCut decode (W.U.S.enc o.frame.body) →
        (∀ v, finish_call decode decode_err (.Resp f i) = .Ok v → Carries W.U.S.enc o f ∧ decode (W.U.S.enc o.frame.body) = some v) ∧
        (¬ Carries W.U.S.enc o f → finish_call decode decode_err (.Resp f i) = .Postcard)) :=
  c84_typed_reply a W.U hU hD hdecl hapart hdist hu (web_run hU (webInv_new W c0) hsm hsh hrun).2 (webSmall_small hsm) hlen decode decode_err
    hc hres

/-- C104 for errors: an error frame a call in the browser returned is one the device sent in answer to a request.  Missing: as
above. -/
theorem c104_typed_error_partial (a : App V E SC Ctx) (W : WebCfg V E SC Ctx) (hU : UsbSound W.U) (hD : define_dispatch a = .ok W.U.S.disp)
    (hdecl : Declared a W.U.S.kkind) (hcfg : W.U.S.cfg.err_key = a.std.error)
    (hdist : ∀ r ∈ a.endpoint_list.endpoints, short (keyLen W.U.S.kkind) r.resp ≠ short (keyLen W.U.S.kkind) a.std.error)
    (hdist' : ∀ t ∈ a.topic_out_list.topics, short (keyLen W.U.S.kkind) t.key ≠ short (keyLen W.U.S.kkind) a.std.error)
    {ls : List (ULabel V)} {c0 : Ctx} {x : WebSys V E SC Ctx} (hu : ∀ l ∈ ls, UsbUsed a l)
    (hrun : w_run W ls (WebSys.new c0) = some x) (hsm : WebSmall W x.u.sys) (hsh : WebShort x.u.sys)
    (hlen : x.u.sys.client.calls.length < 2 ^ 32) {R WE : Type} (decode : Bytes → Option R) (decode_err : Bytes → Option WE)
    {c : Nat} {cl : Call} {f : RpcFrame} {i : Nat}
    (hc : x.u.sys.client.calls[c]? = some cl) (hres : cl.phase = .done (.ErrResp f i)) :
    ∃ o ∈ x.u.sys.outs, ∃ j e, o.src = .req j ∧ o.frame.body = .err e ∧ CarriesPart W.U.S.enc o f ∧
      (RejectsCut decode_err (W.U.S.enc (.err e)) →
        (∀ w, finish_call decode decode_err (.ErrResp f i) = .Wire w → decode_err (W.U.S.enc (.err e)) = some w) ∧
        (¬ Carries W.U.S.enc o f → finish_call decode decode_err (.ErrResp f i) = .Postcard)) :=
  c84_typed_error a W.U hU hD hdecl hcfg hdist hdist' hu (web_run hU (webInv_new W c0) hsm hsh hrun).2 (webSmall_small hsm) hlen decode
    decode_err hc hres

/-- C104 for answers: left to themselves without a failing send, browser and device come to a halt only with nothing on the cable and
every call given up or answered.  Missing: requests that fill their last packet (`c104_answered_false`). -/
theorem c104_answered_partial (a : App V E SC Ctx) (W : WebCfg V E SC Ctx) (hU : UsbSound W.U) (hD : define_dispatch a = .ok W.U.S.disp)
    (hdecl : Declared a W.U.S.kkind) (hF : Fits a W.U.S) (hdepth : 0 < W.U.S.cfg.outgoing_depth)
    {ls : List (ULabel V)} {c0 : Ctx} {x : WebSys V E SC Ctx} (hu : ∀ l ∈ ls, UsbUsed a l) (hl : ∀ l ∈ ls, UsbListens a l)
    (hrun : w_run W ls (WebSys.new c0) = some x) (hlen : x.u.sys.client.calls.length < 2 ^ 32) (hopen : Open x.u.sys)
    {own : List (ULabel V)} {y : WebSys V E SC Ctx} (ho : WebOwnRun W x own y) (hsm : WebSmall W y.u.sys) (hsh : WebShort y.u.sys)
    (hfit : RequestsFit W.U y.u.sys) (hst : WebStuck W y) :
    UsbAtRest y.u ∧ y.u.sys.client.calls.length = x.u.sys.client.calls.length ∧
      ∀ cl ∈ y.u.sys.client.calls, cl.phase = .dropped ∨ ∃ err f i, result cl = some (err, f, i) := by
  have hg := w_run_grows (web_own_w_run ho)
  obtain ⟨i1, r1⟩ := web_run hU (webInv_new W c0) (webSmall_before hsm hg.1) (webShort_before hsh hg.2) hrun
  obtain ⟨i2, r2⟩ := web_own_run hU ho i1 hsm hsh
  have lv := usb_run_live hD hdecl hF hU (usbLive_new a W.U c0) (webSmall_small (webSmall_before hsm hg.1)) (fit_before hfit hg.2) hlen
    (fun l h => ⟨hu l h, hl l h⟩) r1
  obtain ⟨l1, l2, _⟩ := usb_own_inv hD hdecl hF hU r2 lv (webSmall_small hsm) hfit hlen
  exact c84_no_deadlock a W.U hU hD hdecl hF hdepth hu hl r1 hlen hopen r2 (webSmall_small hsm) hfit (web_stuck i2 l1 (l2 hopen) hst)

/-- C104: and they do come to a halt: they do not go on for ever by themselves.  Missing: as above. -/
theorem c104_finite_partial (a : App V E SC Ctx) (W : WebCfg V E SC Ctx) (hU : UsbSound W.U) (hD : define_dispatch a = .ok W.U.S.disp)
    (hdecl : Declared a W.U.S.kkind) (hF : Fits a W.U.S)
    {ls : List (ULabel V)} {c0 : Ctx} {x : WebSys V E SC Ctx} (hu : ∀ l ∈ ls, UsbUsed a l) (hl : ∀ l ∈ ls, UsbListens a l)
    (hrun : w_run W ls (WebSys.new c0) = some x) (hlen : x.u.sys.client.calls.length < 2 ^ 32) :
    ¬ ∃ (f : Nat → WebSys V E SC Ctx) (g : Nat → ULabel V), f 0 = x ∧
      ∀ n, (WebSmall W (f n).u.sys ∧ WebShort (f n).u.sys ∧ RequestsFit W.U (f n).u.sys) ∧ UsbOwn (f n).u (g n) ∧
        w_step W (f n) (g n) = some (f (n + 1)) := by
  rintro ⟨f, g, h0, hf⟩
  have r0 := web_run hU (webInv_new W c0) (h0 ▸ (hf 0).1.1) (h0 ▸ (hf 0).1.2.1) hrun
  have inv : ∀ n, WebInv W (f n) := by
    intro n
    induction n with
    | zero => rw [h0]; exact r0.1
    | succ n ih => exact (web_one hU ih (hf (n + 1)).1.1 (hf (n + 1)).1.2.1 (hf n).2.2).1
  exact c84_finite a W.U hU hD hdecl hF hu hl r0.2 hlen ⟨fun n => (f n).u, g, congrArg WebSys.u h0, fun n =>
    ⟨⟨webSmall_small (hf n).1.1, (hf n).1.2.2⟩, (hf n).2.1, (web_one hU (inv n) (hf (n + 1)).1.1 (hf (n + 1)).1.2.1 (hf n).2.2).2⟩⟩

/-- C104: the packets the host puts on the bus are those of the transfer `WebUsbWire::send` submits. -/
theorem c104_host_packets {d : Bytes} (hd : d ≠ []) : (webusb_send d).flatMap (bulk 64) = chunks64 d := by
  simp [webusb_send, bulk_chunks _ d (Nat.le_refl _) hd]

example : (webusb_send (List.replicate 64 1#8)).flatMap (bulk 64) = [List.replicate 64 1#8] := by
  rw [c104_host_packets (by decide)]; decide +kernel

/-- C104: the messages the host receives are those of the transfers the browser completes with the packets (see C56), up to the one
that fails, if any. -/
theorem c104_transfers (len : Nat) (ps : List Bytes) : ∀ (x : WebSys V E SC Ctx), x.babble = false →
    ∃ n y, n ≤ ps.length ∧ y = (ps.take n).foldl (web_get len) x ∧
      y.u.sys.air = x.u.sys.air ++ (inResults len x.u.cur ps).filterMap (fun r => match r with | .data b => some b | .overflow => none) ∧
      (y.babble = true ↔ .overflow ∈ inResults len x.u.cur ps) ∧ (n < ps.length → y.babble = true) := by
  induction ps with
  | nil => intro x hx; exact ⟨0, x, Nat.le_refl _, rfl, by simp [inResults], by simp [inResults, hx], by simp⟩
  | cons p ps ih =>
    intro x hx
    by_cases h1 : len < (x.u.cur ++ p).length
    · refine ⟨1, web_get len x p, by simp, by simp, ?_, ?_, ?_⟩ <;> simp only [inResults, web_get, gt_iff_lt, if_pos h1] <;> simp
    · by_cases h2 : p.length < 64 ∨ (x.u.cur ++ p).length = len
      · have e : web_get len x p =
            { x with u := { x.u with sys := { x.u.sys with air := x.u.sys.air ++ [x.u.cur ++ p] }, cur := [] } } := by
          simp only [web_get, if_neg h1, if_pos h2]
        obtain ⟨n, y, a1, a2, a3, a4, a5⟩ := ih (web_get len x p) (by rw [e]; exact hx)
        refine ⟨n + 1, y, by simp; omega, by simpa using a2, ?_, ?_, fun h => a5 (by simpa using h)⟩
        · rw [a3, e]
          simp only [inResults, gt_iff_lt, if_neg h1, if_pos h2, List.filterMap_cons, List.append_assoc, List.singleton_append]
        · rw [a4, e]
          simp only [inResults, gt_iff_lt, if_neg h1, if_pos h2, List.mem_cons, reduceCtorEq, false_or]
      · have e : web_get len x p = { x with u := { x.u with cur := x.u.cur ++ p } } := by
          simp only [web_get, if_neg h1, if_neg h2]
        obtain ⟨n, y, a1, a2, a3, a4, a5⟩ := ih (web_get len x p) (by rw [e]; exact hx)
        refine ⟨n + 1, y, by simp; omega, by simpa using a2, ?_, ?_, fun h => a5 (by simpa using h)⟩
        · rw [a3, e]
          simp only [inResults, gt_iff_lt, if_neg h1, if_neg h2]
        · rw [a4, e]
          simp only [inResults, gt_iff_lt, if_neg h1, if_neg h2]

example : inResults 100 [] [List.replicate 64 1#8, [2], List.replicate 64 3, List.replicate 64 4] =
    [.data (List.replicate 64 1#8 ++ [2]), .overflow] := by decide +kernel

/-! ### Concrete systems -/

/-- A browser whose transfers hold 256 bytes. -/
def exWeb : WebCfg Nat WireTxErrorKind Nat Nat := ⟨exUsbCalm, 256⟩

theorem exWeb_small (s : Sys Nat WireTxErrorKind Nat Nat) : WebSmall exWeb s := by
  intro o ho b hb
  have hh : b.length = (encOf o.frame.hdr ++ exEnc o.frame.body).length := by
    have : b.map BitVec.toNat = (encOf o.frame.hdr ++ exEnc o.frame.body).map BitVec.toNat := by
      rw [hb, List.map_append, encOf_layout]; rfl
    simpa using congrArg List.length this
  have h1 : (exEnc o.frame.body).length = 1 := by cases o.frame.body <;> rfl
  have h2 : (encOf o.frame.hdr).length ≤ 13 := by
    rw [encOf_length]
    obtain ⟨k, q⟩ := o.frame.hdr
    cases k <;> cases q <;> simp [encLen, keyBytes, seqWidth]
  show b.length < 1024 ∧ b.length < 256
  rw [List.length_append] at hh
  omega

set_option synthInstance.maxSize 1000 in
/-- The theorems apply: a call that is answered, after which nothing moves. -/
example : UsbSound exWeb.U ∧ define_dispatch exCalmApp = .ok exWeb.U.S.disp ∧ Declared exCalmApp exWeb.U.S.kkind ∧
    KeysApart exCalmApp exWeb.U.S ∧ Fits exCalmApp exWeb.U.S ∧ 0 < exWeb.U.S.cfg.outgoing_depth ∧
    exWeb.U.S.cfg.err_key = exCalmApp.std.error ∧
    (∀ r ∈ exCalmApp.endpoint_list.endpoints, short (keyLen exWeb.U.S.kkind) r.resp ≠ short (keyLen exWeb.U.S.kkind) exCalmApp.std.error) ∧
    (∀ t ∈ exCalmApp.topic_out_list.topics, short (keyLen exWeb.U.S.kkind) t.key ≠ short (keyLen exWeb.U.S.kkind) exCalmApp.std.error) ∧
    (∀ l ∈ exCalmFirst, UsbUsed exCalmApp l ∧ UsbListens exCalmApp l) ∧
    ∃ x, w_run exWeb exCalmFirst (WebSys.new 0) = some x ∧ WebSmall exWeb x.u.sys ∧ WebShort x.u.sys ∧ RequestsFit exWeb.U x.u.sys ∧
      Open x.u.sys ∧ x.u.sys.client.calls.map result = [some (false, ⟨⟨.Key1 ⟨0x83⟩, .Seq4 0⟩, [1]⟩, 0)] := by
  have h : (w_run exWeb exCalmFirst (WebSys.new 0)).map (fun x => (x.u.sys.client.calls.map result, x.u.sys.client.tx.map List.length,
      x.u.sys.client.stopped, x.u.sys.client.handles)) = some ([some (false, ⟨⟨.Key1 ⟨0x83⟩, .Seq4 0⟩, [1]⟩, 0)], [14], false, true) := by
    decide +kernel
  obtain ⟨x, e1, e2⟩ := Option.map_eq_some_iff.mp h
  simp only [Prod.mk.injEq] at e2
  have len : ∀ b ∈ x.u.sys.client.tx, b.length = 14 := by
    intro b hb
    have : b.length ∈ x.u.sys.client.tx.map List.length := List.mem_map.mpr ⟨b, hb, rfl⟩
    rw [e2.2.1] at this
    exact List.mem_singleton.mp this
  refine ⟨exUsbCalm_sound, exCalmApp_ok, exCalmApp_declared, exSysApp_apart, exCalm_fits, by decide, rfl, by decide, by decide, by decide, x, e1,
    exWeb_small _, fun b hb => by rw [len b hb]; decide, fun b hb => ?_, e2.2.2, e2.1⟩
  show b.length < 128
  rw [len b hb]
  decide

/-- Nothing moves: a decidable sufficient condition. -/
def quietB (x : WebSys Nat WireTxErrorKind Nat Nat) : Bool :=
  !x.u.sys.client.stopped && x.u.sys.client.handles && decide (x.u.sys.client.out_pc = .recv) && x.u.sys.client.outq.isEmpty &&
  decide (x.u.sys.client.in_pc = .recv) && x.u.sys.client.pubs.isEmpty && x.u.sys.client.woken.isEmpty && x.u.sys.client.in_polled &&
  x.u.sys.client.out_polled && x.u.sys.pending.isEmpty && x.u.sys.tasks.isEmpty && x.u.sys.air.isEmpty && x.u.bus_out.isEmpty &&
  x.u.ep_out.isEmpty && x.u.sending.isNone

theorem quietB_stuck {W : WebCfg Nat WireTxErrorKind Nat Nat} {x : WebSys Nat WireTxErrorKind Nat Nat} (h : quietB x = true)
    (hc : ∀ cl ∈ x.u.sys.client.calls, (∃ r, cl.phase = .done r) ∨ ∃ k, cl.phase = .waiting k) : Open x.u.sys ∧ WebStuck W x := by
  simp only [quietB, Bool.and_eq_true, decide_eq_true_eq, List.isEmpty_iff, Bool.not_eq_true', Option.isNone_iff_eq_none] at h
  obtain ⟨⟨⟨⟨⟨⟨⟨⟨⟨⟨⟨⟨⟨⟨a1, a2⟩, a3⟩, a4⟩, a5⟩, a6⟩, a7⟩, a8⟩, a9⟩, a10⟩, a11⟩, a12⟩, a13⟩, a14⟩, a15⟩ := h
  refine ⟨⟨a1, a2⟩, web_quiet ⟨⟨a1, a2⟩, ⟨a3, a4⟩, a5, ?_, ?_⟩ a8 a9 a7 a12 a13 a14 a15 a10 a11⟩
  · intro p hp; rw [a6] at hp; cases hp
  · intro c cl h
    rcases hc cl (List.mem_of_getElem? h) with h | h
    · exact .inl h
    · exact .inr (.inr ⟨h, fun w hw => by rw [a7] at hw; cases hw⟩)

set_option synthInstance.maxSize 1000 in
/-- The theorem about answers applies: a run the system takes by itself to a state in which nothing moves. -/
example : ∃ x own y, w_run exWeb (usbCall 0 3#8 0x83#8 [1]) (WebSys.new 0) = some x ∧ Open x.u.sys ∧ WebOwnRun exWeb x own y ∧
    WebStuck exWeb y := by
  have run : ∀ {ls : List (ULabel Nat)} {x y : WebSys Nat WireTxErrorKind Nat Nat}, (∀ l ∈ ls, ∀ z : UsbSys Nat WireTxErrorKind Nat Nat,
      UsbOwn z l) → w_run exWeb ls x = some y → WebOwnRun exWeb x ls y := by
    intro ls
    induction ls with
    | nil => intro x y _ h; cases h; exact .nil _
    | cons l ls ih =>
      intro x y hl h
      simp only [w_run] at h
      split at h
      · rename_i z hz
        exact .cons (hl l (List.mem_cons_self ..) _) hz (ih (fun l h => hl l (List.mem_cons_of_mem _ h)) h)
      · cases h
  have h : ((w_run exWeb (usbCall 0 3#8 0x83#8 [1]) (WebSys.new 0)).bind fun x => (w_run exWeb ([.client .out_poll, .client .out_recv,
      .host_packet, .client (.out_done true), .dev_read, .flush, .dev_write .ok, .client .in_poll,
      .client (.in_recv (some [0x20, 0x83, 0, 0, 0, 0, 1])), .client .in_lookup, .client (.in_wake (some ⟨0, false⟩)),
      .client (.call_ok 0)] : List (ULabel Nat)) x).map fun y => (x, y)).map (fun z => (quietB z.2, z.2.u.sys.client.calls.map result,
      z.1.u.sys.client.stopped, z.1.u.sys.client.handles)) =
        some (true, [some (false, ⟨⟨.Key1 ⟨0x83⟩, .Seq4 0⟩, [1]⟩, 0)], false, true) := by decide +kernel
  obtain ⟨⟨x, y⟩, e1, e2⟩ := Option.map_eq_some_iff.mp h
  obtain ⟨x', e3, e4⟩ := Option.bind_eq_some_iff.mp e1
  obtain ⟨y', e5, e6⟩ := Option.map_eq_some_iff.mp e4
  cases e6
  simp only [Prod.mk.injEq] at e2
  refine ⟨x, _, y, e3, e2.2.2, run ?_ e5, (quietB_stuck e2.1 fun cl hc => ?_).2⟩
  · intro l hl z
    simp only [List.mem_cons, List.not_mem_nil, or_false] at hl
    rcases hl with rfl | rfl | rfl | rfl | rfl | rfl | rfl | rfl | rfl | rfl | rfl | rfl <;> simp [UsbOwn, SysOwn, Own]
  · have : result cl ∈ y.u.sys.client.calls.map result := List.mem_map.mpr ⟨cl, hc, rfl⟩
    rw [e2.2.1] at this
    have := List.mem_singleton.mp this
    unfold result at this
    split at this <;> first | (rename_i e; exact .inl ⟨_, e⟩) | cases this

/-- A call whose request takes 64 bytes. -/
def exWhole : List (ULabel Nat) :=
  usbCall 0 3#8 0x83#8 (List.replicate 51 1) ++
  [.client .out_poll, .client .out_recv, .host_packet, .dev_read, .client (.out_done true), .client .out_yield, .client .out_poll,
    .client .in_poll]

set_option synthInstance.maxSize 1000 in
/-- C104 is false for answers: a request that fills its last packet is not handled (the device waits for the end of it, webusb.rs 159
submits no empty packet as raw_nusb.rs does), and the call waits with nothing moving. -/
theorem c104_answered_false : ¬ C104Answered := by
  intro h
  have h0 : (w_run exWeb exWhole (WebSys.new 0)).map (fun x => (x.u.sys.client.calls.map Call.phase, x.u.sys.client.tx.map List.length,
      quietB x)) = some ([.waiting .Key8], [64], true) := by decide +kernel
  obtain ⟨x, e1, e2⟩ := Option.map_eq_some_iff.mp h0
  simp only [Prod.mk.injEq] at e2
  obtain ⟨e3, e4, e5⟩ := e2
  have hl : x.u.sys.client.calls.length = 1 := by simpa using congrArg List.length e3
  have hph : ∀ cl ∈ x.u.sys.client.calls, cl.phase = .waiting .Key8 := by
    intro cl hc
    have : cl.phase ∈ x.u.sys.client.calls.map Call.phase := List.mem_map.mpr ⟨cl, hc, rfl⟩
    rw [e3] at this
    exact List.mem_singleton.mp this
  obtain ⟨ho, hst⟩ := quietB_stuck (W := exWeb) e5 fun cl hc => .inr ⟨_, hph cl hc⟩
  have hfit : RequestsFit exWeb.U x.u.sys := by
    intro b hb
    have : b.length ∈ x.u.sys.client.tx.map List.length := List.mem_map.mpr ⟨b, hb, rfl⟩
    rw [e4] at this
    have := List.mem_singleton.mp this
    show b.length < 128
    omega
  cases hc : x.u.sys.client.calls with
  | nil => rw [hc] at hl; cases hl
  | cons cl cs =>
    have hm : cl ∈ x.u.sys.client.calls := by rw [hc]; exact List.mem_cons_self ..
    rcases h _ _ _ _ exCalmApp exWeb exUsbCalm_sound exCalmApp_ok exCalmApp_declared exCalm_fits (by decide) exWhole 0 x (by decide) (by decide)
      e1 (by omega) ho (exWeb_small _) hfit hst cl hm with h | ⟨err, f, i, h⟩
    · rw [hph cl hm] at h; cases h
    · simp [result, hph cl hm] at h

/-- A call whose request takes 64 bytes, and another. -/
def exSwallow : List (ULabel Nat) :=
  usbCall 0 3#8 0x83#8 (List.replicate 51 1) ++ usbCall 1 3#8 0x83#8 [7] ++
  [.client .out_poll, .client .out_recv, .host_packet, .dev_read, .client (.out_done true), .client .out_recv, .host_packet, .dev_read,
    .client (.out_done true), .client .out_yield, .client .out_poll, .flush, .dev_write .ok] ++
    usbRecv [0x20, 0xE0, 0, 0, 0, 0, 0xEE] (some ⟨0, true⟩) ++ [.client (.call_err 0), .client .in_poll]

set_option synthInstance.maxSize 1000 in
/-- And such a request takes the next one with it: the device reads the two as one message, the second call is never answered though
its request is of a length that would be dealt with. -/
theorem c104_swallows : (∀ l ∈ exSwallow, UsbUsed exCalmApp l ∧ UsbListens exCalmApp l) ∧
    ∃ x, w_run exWeb exSwallow (WebSys.new 0) = some x ∧ x.u.sys.client.tx.map List.length = [64, 14] ∧ Open x.u.sys ∧ WebStuck exWeb x ∧
      ∃ cl k, x.u.sys.client.calls[1]? = some cl ∧ cl.phase = .waiting k := by
  have h0 : (w_run exWeb exSwallow (WebSys.new 0)).map (fun x => (x.u.sys.client.calls.map Call.phase, x.u.sys.client.tx.map List.length,
      quietB x)) = some ([.done (.ErrResp ⟨⟨.Key1 ⟨0xE0⟩, .Seq4 0⟩, [0xEE]⟩ 0), .waiting .Key8], [64, 14], true) := by decide +kernel
  obtain ⟨x, e1, e2⟩ := Option.map_eq_some_iff.mp h0
  simp only [Prod.mk.injEq] at e2
  obtain ⟨e3, e4, e5⟩ := e2
  obtain ⟨ho, hst⟩ := quietB_stuck (W := exWeb) e5 fun cl hc => by
    have : cl.phase ∈ x.u.sys.client.calls.map Call.phase := List.mem_map.mpr ⟨cl, hc, rfl⟩
    rw [e3] at this
    rcases List.mem_cons.mp this with h | h
    · exact .inl ⟨_, h⟩
    · exact .inr ⟨_, List.mem_singleton.mp h⟩
  refine ⟨by decide, x, e1, e4, ho, hst, ?_⟩
  have hr : (x.u.sys.client.calls.map Call.phase)[1]? = some (.waiting .Key8) := by rw [e3]; rfl
  rw [List.getElem?_map] at hr
  obtain ⟨cl, hc, hp⟩ := Option.map_eq_some_iff.mp hr
  exact ⟨cl, _, hc, hp⟩

end PRpc.Props
