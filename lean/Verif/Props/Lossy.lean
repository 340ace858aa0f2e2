import Verif.Props.Live
import Verif.Lemmas.Session
import Verif.Spec.Lossy
/-! Typed calls over a link on which a failed send leaves a beginning of its frame: C74. -/

namespace PRpc.Props

open Spec

variable {V E SC Ctx : Type}

/-- A decoder that rejects what is cut accepts a beginning only if it is everything. -/
theorem prefix_accepted {R : Type} {decode : Bytes → Option R} {bs b : Bytes} {v : R} (hr : RejectsCut decode bs) (hp : b <+: bs)
    (hv : decode b = some v) : b = bs := by
  obtain ⟨t, rfl⟩ := hp
  cases t with
  | nil => simp
  | cons x t =>
    have := hr b.length (by simp)
    rw [List.take_left' rfl, hv] at this
    cases this

/-- What a typed call returns of a reply of which all or a part arrived. -/
theorem typed_part {enc : Body V → Bytes} {o : Out V} {f : RpcFrame} {i : Nat} {R W : Type} (decode : Bytes → Option R)
    (decode_err : Bytes → Option W) (h1 : CarriesPart enc o f) (hr : RejectsCut decode (enc o.frame.body)) :
    (∀ v, finish_call decode decode_err (.Resp f i) = .Ok v → Carries enc o f ∧ decode (enc o.frame.body) = some v) ∧
    (¬ Carries enc o f → finish_call decode decode_err (.Resp f i) = .Postcard) := by
  obtain ⟨b1, b2⟩ := h1.begins
  have main : ∀ v, decode f.body = some v → f.body = enc o.frame.body := fun v hv => prefix_accepted hr b2 hv
  simp only [finish_call]
  cases hd : decode f.body with
  | none => exact ⟨fun v h => (nomatch h), fun _ => rfl⟩
  | some w =>
    have e := main w hd
    exact ⟨fun v h => by cases h; exact ⟨⟨b1, e⟩, by rw [← e]; exact hd⟩, fun h => absurd ⟨b1, e⟩ h⟩

/-- C74: over such a link, in an application whose error key differs at the key length in use from every response key, a typed
call that returned `Ok(v)` returned what the response decoder makes of the whole reply the handler of its endpoint gave to its
own request, if the decoder rejects what is cut from that reply; and a call that got less than the whole reply then returned a
decoding error. -/
theorem c74_typed_reply (a : App V E SC Ctx) (S : SysCfg V E SC Ctx) (hD : define_dispatch a = .ok S.disp)
    (hdecl : Declared a S.kkind) (hapart : KeysApart a S)
    (hdist : ∀ r ∈ a.endpoint_list.endpoints, short (keyLen S.kkind) r.resp ≠ short (keyLen S.kkind) a.std.error)
    {ls : List (SLabel V)} {c0 : Ctx} {s : Sys V E SC Ctx} (hu : ∀ l ∈ ls, Used a l) (hrun : sys_run S ls (Sys.new c0) = some s)
    (hlen : s.client.calls.length < 2 ^ 32) {R W : Type} (decode : Bytes → Option R) (decode_err : Bytes → Option W)
    {c : Nat} {cl : Call} {f : RpcFrame} {i : Nat}
    (hc : s.client.calls[c]? = some cl) (hres : cl.phase = .done (.Resp f i)) :
    ∃ o ∈ s.outs, ∃ j hdr req, RequestOf s c cl j hdr ∧ cl.rqst.header.key = .Key8 req ∧
      ReplyTo S.disp s j hdr cl.rqst.body req cl.resp_key o ∧ CarriesPart S.enc o f ∧
      (RejectsCut decode (S.enc o.frame.body) →
        (∀ v, finish_call decode decode_err (.Resp f i) = .Ok v → Carries S.enc o f ∧ decode (S.enc o.frame.body) = some v) ∧
        (¬ Carries S.enc o f → finish_call decode decode_err (.Resp f i) = .Postcard)) := by
  obtain ⟨o, ho, j, hdr, req, h1, h2, h3, h4⟩ := c74_reply_begins a S hD hdecl hapart hdist hu hrun hlen hc (by rw [result, hres])
  exact ⟨o, ho, j, hdr, req, h2, h3, h4, h1, typed_part decode decode_err h1⟩

/-- C74 in every session of a server: the same, except that in a session after others the reply may be that of a task of an earlier
one; of such a reply too a typed call returns what the decoder makes of the whole. -/
theorem c74_typed_reply_later (a : App V E SC Ctx) (S : SysCfg V E SC Ctx) (hD : define_dispatch a = .ok S.disp)
    (hdecl : Declared a S.kkind) (hapart : KeysApart a S)
    (hdist : ∀ r ∈ a.endpoint_list.endpoints, short (keyLen S.kkind) r.resp ≠ short (keyLen S.kkind) a.std.error)
    {es : List (Sys V E SC Ctx)} {s0 : Sys V E SC Ctx} (h0 : Sessions a S es s0)
    {ls : List (SLabel V)} {s : Sys V E SC Ctx} (hu : ∀ l ∈ ls, Used a l) (hrun : sys_run S ls s0 = some s)
    (hlen : s.client.calls.length < 2 ^ 32) {R W : Type} (decode : Bytes → Option R) (decode_err : Bytes → Option W)
    {c : Nat} {cl : Call} {f : RpcFrame} {i : Nat}
    (hc : s.client.calls[c]? = some cl) (hres : cl.phase = .done (.Resp f i)) :
    ∃ o ∈ s.outs,
      ((∃ j hdr req, RequestOf s c cl j hdr ∧ cl.rqst.header.key = .Key8 req ∧ ReplyTo S.disp s j hdr cl.rqst.body req cl.resp_key o) ∨
        (es ≠ [] ∧ ∃ k j t, StaleReply S.disp s cl.resp_key o k j t)) ∧
      CarriesPart S.enc o f ∧
      (RejectsCut decode (S.enc o.frame.body) →
        (∀ v, finish_call decode decode_err (.Resp f i) = .Ok v → Carries S.enc o f ∧ decode (S.enc o.frame.body) = some v) ∧
        (¬ Carries S.enc o f → finish_call decode decode_err (.Resp f i) = .Postcard)) := by
  obtain ⟨o, ho, ⟨j, hdr, req, h1, h2, h3, h4⟩ | ⟨h1, k, j, t, hst, _⟩⟩ :=
    reply_begins a S hD hdecl hapart hdist (sys_run_inv hrun hu (sessions_start h0).inv) hlen hc (by rw [result, hres])
  · exact ⟨o, ho, .inl ⟨j, hdr, req, h2, h3, h4⟩, h1, typed_part decode decode_err h1⟩
  · refine ⟨o, ho, .inr ⟨?_, k, j, t, hst⟩, h1, typed_part decode decode_err h1⟩
    rintro rfl
    exact stale_none h0 hrun hst

/-- C74 for errors, in every session of a server: a call that returned `Err(Wire(w))` returned what the error decoder makes of a whole error the server sent
for a frame with the call's sequence number, if the decoder rejects what is cut from that error. -/
theorem c74_typed_error (a : App V E SC Ctx) (S : SysCfg V E SC Ctx) (hD : define_dispatch a = .ok S.disp)
    (hdecl : Declared a S.kkind) (hcfg : S.cfg.err_key = a.std.error)
    (hdist : ∀ r ∈ a.endpoint_list.endpoints, short (keyLen S.kkind) r.resp ≠ short (keyLen S.kkind) a.std.error)
    (hdist' : ∀ t ∈ a.topic_out_list.topics, short (keyLen S.kkind) t.key ≠ short (keyLen S.kkind) a.std.error)
    {es : List (Sys V E SC Ctx)} {s0 : Sys V E SC Ctx} (h0 : Sessions a S es s0)
    {ls : List (SLabel V)} {s : Sys V E SC Ctx} (hu : ∀ l ∈ ls, Used a l) (hrun : sys_run S ls s0 = some s)
    (hlen : s.client.calls.length < 2 ^ 32) {R W : Type} (decode : Bytes → Option R) (decode_err : Bytes → Option W)
    {c : Nat} {cl : Call} {f : RpcFrame} {i : Nat}
    (hc : s.client.calls[c]? = some cl) (hres : cl.phase = .done (.ErrResp f i)) :
    ∃ o ∈ s.outs, ∃ j e, o.src = .req j ∧ o.frame.body = .err e ∧ CarriesPart S.enc o f ∧
      (RejectsCut decode_err (S.enc (.err e)) →
        (∀ w, finish_call decode decode_err (.ErrResp f i) = .Wire w → decode_err (S.enc (.err e)) = some w) ∧
        (¬ Carries S.enc o f → finish_call decode decode_err (.ErrResp f i) = .Postcard)) := by
  obtain ⟨o, ho, j, hdr, e, h1, h2, h3, _⟩ := error_begins a S hD hdecl hcfg hdist hdist' (sys_run_inv hrun hu (sessions_start h0).inv) hlen hc (by rw [result, hres])
  refine ⟨o, ho, j, e, h2, h3, h1, fun hr => ?_⟩
  obtain ⟨b1, b2⟩ := h1.begins
  rw [h3] at b2
  simp only [finish_call]
  cases hd : decode_err f.body with
  | none => exact ⟨fun v h => (nomatch h), fun _ => rfl⟩
  | some w =>
    have e' := prefix_accepted hr b2 hd
    exact ⟨fun v h => by cases h; rw [← e']; exact hd, fun h => absurd ⟨b1, by rw [e', h3]⟩ h⟩

/-! ### Concrete systems -/

/-- All sends of the server fail, with `n` bytes of the frame on the link. -/
def exSysCut (n : Nat) : SysCfg Nat WireTxErrorKind Nat Nat := { exSysLossy with cut := fun _ _ => n }

/-- A call of the spawned endpoint; the handler's reply is cut. -/
def exCutRun (b : Bytes) (w : Option WaitId) : List (SLabel Nat) :=
  sysCall 0 5#8 0x85#8 [1] ++ sysSend ++ [.serve, .task_reply 0 11] ++ sysRecv b w ++ [.client (.call_ok 0)]

set_option synthInstance.maxSize 1000 in
/-- The reply without its body: the call ends with an empty frame. -/
theorem exCutRun_result :
    (sys_run (exSysCut 6) (exCutRun [0x20, 0x85, 0, 0, 0, 0] (some ⟨0, false⟩)) (Sys.new 0)).map
      (fun s => (s.client.calls.map result, s.outs.map fun o => (o.src, o.cut))) =
    some ([some (false, ⟨⟨.Key1 ⟨0x85⟩, .Seq4 0⟩, []⟩, 0)], [(.task 0, some 6)]) := by decide +kernel

/-- The response decoder of the example: one byte. -/
def exByte : Bytes → Option Nat
  | b :: _ => some b.toNat
  | [] => none

/-- In a second session the task of the first replies: the part that arrives is a decoding error there too. -/
theorem exCut_second : ∃ s t cl, Sessions exSysApp (exSysCut 6) ([] ++ [s]) s.reconnect ∧
    sys_run (exSysCut 6) (sysCall 0 5#8 0x85#8 [2] ++ sysSend ++ [.task_reply 0 11] ++ sysRecv [0x20, 0x85, 0, 0, 0, 0] (some ⟨0, false⟩) ++
      [.client (.call_ok 0)]) s.reconnect = some t ∧
    t.client.calls = [cl] ∧ cl.phase = .done (.Resp ⟨⟨.Key1 ⟨0x85⟩, .Seq4 0⟩, []⟩ 0) := by
  have h : ((sys_run (exSysCut 6) (sysCall 0 5#8 0x85#8 [1] ++ sysSend ++ [.serve]) (Sys.new 0)).bind fun s =>
      (sys_run (exSysCut 6) (sysCall 0 5#8 0x85#8 [2] ++ sysSend ++ [.task_reply 0 11] ++ sysRecv [0x20, 0x85, 0, 0, 0, 0] (some ⟨0, false⟩) ++
        [.client (.call_ok 0)]) s.reconnect).map fun t => (s.client.calls.length, t.client.calls.map (·.phase))) =
      some (1, [.done (.Resp ⟨⟨.Key1 ⟨0x85⟩, .Seq4 0⟩, []⟩ 0)]) := by decide +kernel
  obtain ⟨s, h1, h⟩ := Option.bind_eq_some_iff.mp h
  obtain ⟨t, h2, h⟩ := Option.map_eq_some_iff.mp h
  simp only [Prod.mk.injEq] at h
  obtain ⟨cl, cs, h4, h5, h6⟩ := List.map_eq_cons_iff.mp h.2
  cases List.map_eq_nil_iff.mp h6
  exact ⟨s, t, cl, .next [] _ s _ (.first 0) (by decide) h1 (by rw [h.1]; decide), h2, h4, h5⟩

/-- The theorems apply, that on later sessions to this one: the decoder rejects what is cut, and the call returns a decoding error. -/
example : define_dispatch exSysApp = .ok (exSysCut 6).disp ∧ Declared exSysApp (exSysCut 6).kkind ∧ KeysApart exSysApp (exSysCut 6) ∧
    (∀ r ∈ exSysApp.endpoint_list.endpoints, short (keyLen (exSysCut 6).kkind) r.resp ≠ short (keyLen (exSysCut 6).kkind) exSysApp.std.error) ∧
    (∀ l ∈ exCutRun [0x20, 0x85, 0, 0, 0, 0] (some ⟨0, false⟩), Used exSysApp l) ∧
    (∀ v, RejectsCut exByte ((exSysCut 6).enc (.val v))) ∧
    finish_call (W := Nat) exByte exByte (.Resp ⟨⟨.Key1 ⟨0x85⟩, .Seq4 0⟩, []⟩ 0) = .Postcard := by
  refine ⟨exSysApp_ok, exSysApp_declared, exSysApp_apart, by decide, by decide, fun v n hn => ?_, rfl⟩
  have : n = 0 := by
    have : n < 1 := hn
    omega
  subst this
  rfl

set_option synthInstance.maxSize 1000 in
/-- A failed send all of whose bytes got out: the call returns the reply. -/
theorem c74_failed_send_arrives :
    (sys_run (exSysCut 7) (exCutRun [0x20, 0x85, 0, 0, 0, 0, 11] (some ⟨0, false⟩)) (Sys.new 0)).map
      (fun s => (s.client.calls.map result, s.outs.map fun o => (o.src, o.cut))) =
    some ([some (false, ⟨⟨.Key1 ⟨0x85⟩, .Seq4 0⟩, [11]⟩, 0)], [(.task 0, some 7)]) := by decide +kernel

set_option synthInstance.maxSize 1000 in
/-- Without a decoder that rejects what is cut the call is not protected: the frame a caller of the raw interface gets is not
the reply. -/
theorem c74_raw_gets_a_beginning :
    ∃ s, sys_run (exSysCut 6) (exCutRun [0x20, 0x85, 0, 0, 0, 0] (some ⟨0, false⟩)) (Sys.new 0) = some s ∧
      ∃ cl f, s.client.calls[0]? = some cl ∧ result cl = some (false, f, 0) ∧ ∀ o ∈ s.outs, ¬ Carries (exSysCut 6).enc o f := by
  have h0 : (sys_run (exSysCut 6) (exCutRun [0x20, 0x85, 0, 0, 0, 0] (some ⟨0, false⟩)) (Sys.new 0)).map
      (fun s => (s.client.calls.map result, s.outs.map fun o => exEnc o.frame.body)) =
      some ([some (false, ⟨⟨.Key1 ⟨0x85⟩, .Seq4 0⟩, []⟩, 0)], [[11]]) := by decide +kernel
  obtain ⟨s, e1, e2⟩ := Option.map_eq_some_iff.mp h0
  simp only [Prod.mk.injEq] at e2
  have hr : (s.client.calls.map result)[0]? = some (some (false, ⟨⟨.Key1 ⟨0x85⟩, .Seq4 0⟩, []⟩, 0)) := by rw [e2.1]; rfl
  rw [List.getElem?_map] at hr
  obtain ⟨cl, hc, hres⟩ := Option.map_eq_some_iff.mp hr
  refine ⟨s, e1, cl, _, hc, hres, fun o ho hcar => ?_⟩
  have : exEnc o.frame.body ∈ s.outs.map fun o => exEnc o.frame.body := List.mem_map.mpr ⟨o, ho, rfl⟩
  rw [e2.2, List.mem_singleton] at this
  have h2 : [] = exEnc o.frame.body := hcar.2
  rw [this] at h2
  cases h2

/-- A reply cut within its header is ignored: the call waits with the whole system at rest. -/
theorem c74_cut_header_hangs : ∃ s, sys_run (exSysCut 5)
      (sysCall 0 5#8 0x85#8 [1] ++ sysSend ++ [.serve, .task_reply 0 11, .client .in_poll,
        .client (.in_recv (some [0x20, 0x85, 0, 0, 0]))]) (Sys.new 0) = some s ∧
    AtRest s ∧ ∃ cl k, s.client.calls[0]? = some cl ∧ cl.phase = .waiting k := by
  have h : (sys_run (exSysCut 5) (sysCall 0 5#8 0x85#8 [1] ++ sysSend ++ [.serve, .task_reply 0 11, .client .in_poll,
      .client (.in_recv (some [0x20, 0x85, 0, 0, 0]))]) (Sys.new 0)).map waitsForEver = some true := by decide +kernel
  obtain ⟨s, e1, e2⟩ := Option.map_eq_some_iff.mp h
  exact ⟨s, e1, waitsForEver_iff e2⟩

end PRpc.Props
