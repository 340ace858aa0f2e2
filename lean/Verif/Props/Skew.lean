import Verif.Lemmas.Skew
/-! C98: a host and a board of different versions. -/

namespace PRpc.Props

open Spec

variable {V E SC Ctx : Type}

/-! ### A concrete host -/

/-- A host that knows endpoint 3 as the board does, a new endpoint, endpoint 4 with another request, a new topic to publish and a
new topic to subscribe to. -/
def exOther : HostIcd where
  endpoints := [⟨[], exKey 3#8, exKey 0x83#8⟩, ⟨[], exKey 0x13#8, exKey 0x93#8⟩, ⟨[], exKey 0x14#8, exKey 0x84#8⟩]
  topics_in := [⟨[], exKey 6#8⟩, ⟨[], exKey 0x16#8⟩]
  topics_out := [⟨[], exKey 0x95#8⟩, ⟨[], exKey 0x96#8⟩]

theorem exSys_sound : SoundBoard exSysApp exSys where
  disp := exSysApp_ok
  decl := exSysApp_declared
  err_key := rfl
  apart := exSysApp_apart
  errs := by decide

theorem exOther_requests : RequestsApart exSysApp exOther (keyLen exSys.disp.n) := ⟨by decide +kernel, by decide +kernel⟩

theorem exOther_answers : AnswersApart exSysApp exOther (keyLen exSys.kkind) := ⟨⟨by decide +kernel, by decide +kernel⟩, by decide +kernel⟩

instance decHostUses (H : HostIcd) (l : SLabel Nat) : Decidable (HostUses exSysApp H l) := by
  cases l with
  | client l => cases l <;> simp only [HostUses] <;> infer_instance
  | _ => simp only [HostUses] <;> infer_instance

instance decHostListens (H : HostIcd) (l : SLabel Nat) : Decidable (HostListens H l) := by
  cases l with
  | client l => cases l <;> simp only [HostListens] <;> infer_instance
  | _ => simp only [HostListens] <;> infer_instance

/-- The host subscribes to its new topic and calls the new endpoint and endpoint 3; the board publishes a topic of its own. -/
def exOtherRun : List (SLabel Nat) :=
  [.client (.sub_excl (exKey 0x96#8) 4)] ++ sysCall 0 0x13#8 0x93#8 [1] ++ sysCall 1 3#8 0x83#8 [7] ++ sysSend ++ sysSend ++
  [.serve, .flush, .serve, .flush, .app_publish (exKey 0x95#8) (.Seq1 9#8) 5] ++
  sysRecv [0x20, 0xE0, 0, 0, 0, 0, 0xEE] (some ⟨0, true⟩) ++ sysRecv [0x20, 0x83, 1, 0, 0, 0, 7] (some ⟨1, false⟩) ++
  [.client (.call_err 0), .client (.call_ok 1)]

theorem exOther_used : ∀ l ∈ exOtherRun, HostUses exSysApp exOther l := by decide

set_option synthInstance.maxSize 1000 in
/-- The call of the new endpoint gets an error, that of endpoint 3 its reply.  The context was changed for the second one only. -/
theorem exOther_result : (sys_run exSys exOtherRun (Sys.new 0)).map (fun s => (s.client.calls.map result, s.client.calls.map (·.rqst.header.key),
      contexts s, s.client.tx)) =
    some ([some (true, ⟨⟨.Key1 ⟨0xE0⟩, .Seq4 0⟩, [0xEE]⟩, 0), some (false, ⟨⟨.Key1 ⟨0x83⟩, .Seq4 1⟩, [7]⟩, 1)],
      [.Key8 (exKey 0x13#8), .Key8 (exKey 3#8)], [0, 0, 1],
      [[0xE0, 0x13, 0, 0, 0, 0, 0, 0, 0, 0, 0, 0, 0, 1], [0xE0, 3, 0, 0, 0, 0, 0, 0, 0, 1, 0, 0, 0, 7]]) := by
  decide +kernel

/-- The frame of the second call is for endpoint 3. -/
theorem exOther_for : ForEndpoint exSys.disp ⟨.Key8 (exKey 3#8), .Seq4 1#32⟩ exBlocking where
  long := by unfold LongEnough; decide
  notStd := by unfold NotStd; decide
  here := by decide
  first := ⟨[], _, rfl, fun _ h => by cases h⟩

/-! ### Nothing is misread -/

/-- C98 as stated, first half: if the keys of the two versions differ (in full), the handler of an endpoint runs only for calls
of this endpoint. -/
def C98NotMisread : Prop :=
  ∀ (V E SC Ctx : Type) (a : App V E SC Ctx) (S : SysCfg V E SC Ctx) (H : HostIcd), SoundBoard a S → RequestsApart a H 8 →
  AnswersApart a H 8 → ∀ (ls : List (SLabel V)) (c0 : Ctx) (s : Sys V E SC Ctx), (∀ l ∈ ls, HostUses a H l) →
    sys_run S ls (Sys.new c0) = some s → s.client.calls.length < 2 ^ 32 →
  ∀ (j : Nat) (b body : Bytes) (hdr : VarHeader) (h : EpHandler V Ctx), s.client.tx[j]? = some b → IsFrame b hdr body →
    ForEndpoint S.disp hdr h → ∃ c cl, RequestOf s c cl j hdr ∧ cl.rqst.header.key = .Key8 h.req ∧ cl.rqst.body = body

/-- C98: if the keys of what both versions send to the board differ at its key length, the board runs the handler of an endpoint
only for calls of exactly this endpoint, that of a topic only for publications of exactly this topic, and it answers pings and
requests for the schemas only if that is what they are. -/
theorem c98_not_misread_partial (a : App V E SC Ctx) (S : SysCfg V E SC Ctx) (H : HostIcd) (hb : SoundBoard a S)
    (hreq : RequestsApart a H (keyLen S.disp.n)) {ls : List (SLabel V)} {c0 : Ctx} {s : Sys V E SC Ctx} (hu : ∀ l ∈ ls, HostUses a H l)
    (hrun : sys_run S ls (Sys.new c0) = some s) (hlen : s.client.calls.length < 2 ^ 32) {j : Nat} {b body : Bytes} {hdr : VarHeader}
    (hj : s.client.tx[j]? = some b) (hf : IsFrame b hdr body) :
    (∀ h, ForEndpoint S.disp hdr h → ∃ c cl, RequestOf s c cl j hdr ∧ cl.rqst.header.key = .Key8 h.req ∧ cl.rqst.body = body) ∧
    (∀ t, ForTopic S.disp hdr t → ∃ (p : Nat) (pb : Pub), s.client.pubs[p]? = some pb ∧ pb.orig.header.key = .Key8 t.key ∧
      pb.orig.header.seq_no = hdr.seq_no ∧ pb.orig.body = body) ∧
    (∀ k, k = a.std.ping_req ∨ k = a.std.schemas_req → LongEnough S.disp hdr → rxShort S.disp hdr = short (keyLen S.disp.n) k →
      ∃ c cl, RequestOf s c cl j hdr ∧ cl.rqst.header.key = .Key8 k ∧ cl.rqst.body = body) :=
  host_not_misread hb hreq (sys_run_inv hrun (fun l hl => host_used (hu l hl)) (sysInv_new (withHost a H) S c0)) hlen hj hf

/-- C98: a call gets a reply only if the board handles an endpoint with both its keys, and then it is (a beginning of) the reply
of this endpoint to the call's own request. -/
theorem c98_replies (a : App V E SC Ctx) (S : SysCfg V E SC Ctx) (H : HostIcd) (hb : SoundBoard a S)
    (hreq : RequestsApart a H (keyLen S.disp.n)) (hresp : AnswersApart a H (keyLen S.kkind)) {ls : List (SLabel V)} {c0 : Ctx}
    {s : Sys V E SC Ctx} (hu : ∀ l ∈ ls, HostUses a H l) (hrun : sys_run S ls (Sys.new c0) = some s)
    (hlen : s.client.calls.length < 2 ^ 32) {c : Nat} {cl : Call} {f : RpcFrame} {i : Nat} (hc : s.client.calls[c]? = some cl)
    (hres : result cl = some (false, f, i)) :
    ∃ req, cl.rqst.header.key = .Key8 req ∧ (req, cl.resp_key) ∈ handledPairs S.disp ∧
      ∃ o ∈ s.outs, ∃ j hdr, CarriesPart S.enc o f ∧ RequestOf s c cl j hdr ∧ ReplyTo S.disp s j hdr cl.rqst.body req cl.resp_key o := by
  have hR : Routes a S.disp := (dispatches hb.disp).toRoutes
  have inv := sys_run_inv hrun (fun l hl => host_used (hu l hl)) (sysInv_new (withHost a H) S c0)
  obtain ⟨o, ho, ⟨j, hdr, req, h1, h2, h3, h4⟩ | ⟨_, k, j, t, h, _⟩⟩ := reply_begins (withHost a H) S (host_receives hR hreq)
    (host_declared hb.decl H) (host_apart hresp) (host_resp_err hresp) inv hlen hc hres
  · refine ⟨req, h3, ?_, o, ho, j, hdr, h1, h2, h4⟩
    exact reply_pair h4
  · have := h.earlier
    rw [sys_run_new_old hrun] at this
    exact absurd this (Nat.not_lt_zero _)

/-! ### What becomes of the calls the board does not know -/

/-- C98: an error a call gets is one the board sent for the call's request, or for a publication with its sequence number.  If
the board does not handle the request's key, the error for it says so: the key is unknown or, if the board sends shorter keys than
its dispatcher compares, too short.  If it does, the request could not be decoded, the reply not sent or the handler not spawned. -/
theorem c98_errors (a : App V E SC Ctx) (S : SysCfg V E SC Ctx) (H : HostIcd) (hb : SoundBoard a S)
    (hreq : RequestsApart a H (keyLen S.disp.n)) (hresp : AnswersApart a H (keyLen S.kkind)) {ls : List (SLabel V)} {c0 : Ctx}
    {s : Sys V E SC Ctx} (hu : ∀ l ∈ ls, HostUses a H l) (hrun : sys_run S ls (Sys.new c0) = some s)
    (hlen : s.client.calls.length < 2 ^ 32) {c : Nat} {cl : Call} {f : RpcFrame} {i : Nat} (hc : s.client.calls[c]? = some cl)
    (hres : result cl = some (true, f, i)) :
    ∃ o ∈ s.outs, ∃ j hdr body e, CarriesPart S.enc o f ∧ o.src = .req j ∧ o.frame.body = .err e ∧
      RefusedAt S.disp S.kkind s j hdr body e ∧
      ((RequestOf s c cl j hdr ∧ body = cl.rqst.body ∧ ∀ req, cl.rqst.header.key = .Key8 req →
          (req ∉ handledKeys S.disp → (e = .UnknownKey ∨ e = .KeyTooSmall) ∧ (keyLen S.disp.n ≤ keyLen S.kkind → e = .UnknownKey)) ∧
          (req ∈ handledKeys S.disp → keyLen S.disp.n ≤ keyLen S.kkind → e = .DeserFailed ∨ e = .SerFailed ∨ e = .FailedToSpawn)) ∨
        ∃ (p : Nat) (pb : Pub), s.client.pubs[p]? = some pb ∧ hdr.seq_no = pb.orig.header.seq_no ∧
          seqVal pb.orig.header.seq_no = seqVal cl.rqst.header.seq_no) :=
  host_errors hb hreq hresp (sys_run_inv hrun (fun l hl => host_used (hu l hl)) (sysInv_new (withHost a H) S c0))
    (sessions_errInv (a := withHost a H) (.first c0) hrun) hlen hc hres

/-- The conditions of the theorems on what is misread, on replies and on errors hold of the run. -/
example : SoundBoard exSysApp exSys ∧ RequestsApart exSysApp exOther (keyLen exSys.disp.n) ∧ AnswersApart exSysApp exOther (keyLen exSys.kkind) ∧
    (∀ l ∈ exOtherRun, HostUses exSysApp exOther l) ∧ exKey 0x13#8 ∉ handledKeys exSys.disp ∧
    ∃ s, sys_run exSys exOtherRun (Sys.new 0) = some s ∧ s.client.calls.length < 2 ^ 32 ∧
      (∃ b, s.client.tx[1]? = some b ∧ IsFrame b ⟨.Key8 (exKey 3#8), .Seq4 1#32⟩ [7]) ∧
      (∃ cl f i, s.client.calls[0]? = some cl ∧ cl.rqst.header.key = .Key8 (exKey 0x13#8) ∧ result cl = some (true, f, i)) ∧
      ∃ cl f i, s.client.calls[1]? = some cl ∧ result cl = some (false, f, i) := by
  refine ⟨exSys_sound, exOther_requests, exOther_answers, exOther_used, by decide, ?_⟩
  obtain ⟨s, e1, e2⟩ := Option.map_eq_some_iff.mp exOther_result
  simp only [Prod.mk.injEq] at e2
  obtain ⟨r, k, _, t⟩ := e2
  obtain ⟨x, y, hc⟩ : ∃ x y, s.client.calls = [x, y] := by
    match hc : s.client.calls with
    | [x, y] => exact ⟨x, y, rfl⟩
    | [] | [_] | _ :: _ :: _ :: _ => rw [hc] at k; simp at k
  · rw [hc] at r k
    simp only [List.map_cons, List.map_nil, List.cons.injEq, and_true] at r k
    exact ⟨s, e1, by rw [hc]; simp, ⟨_, by rw [t]; rfl, (isFrame_iff ..).mpr rfl⟩, ⟨x, _, _, by rw [hc]; rfl, k.1, r.1⟩, ⟨y, _, _, by rw [hc]; rfl, r.2⟩⟩

/-- C98: a request whose key the board does not handle changes nothing there: the context of the handlers stays as it is, and no
task is spawned. -/
theorem c98_unknown_no_effect (a : App V E SC Ctx) (S : SysCfg V E SC Ctx) (H : HostIcd) (hb : SoundBoard a S)
    (hreq : RequestsApart a H (keyLen S.disp.n)) {ls : List (SLabel V)} {c0 : Ctx}
    {s : Sys V E SC Ctx} (hu : ∀ l ∈ ls, HostUses a H l) (hrun : sys_run S ls (Sys.new c0) = some s)
    {c j : Nat} {cl : Call} {hdr : VarHeader} {req : Key} (hq : RequestOf s c cl j hdr)
    (hk : cl.rqst.header.key = .Key8 req) (hn : req ∉ handledKeys S.disp) :
    (j < s.taken → ∃ ctx, (contexts s)[j]? = some ctx ∧ (contexts s)[j + 1]? = some ctx) ∧
    ∀ (i : Nat) (x : Nat × Task V SC), s.tasks[i]? = some x → x.1 ≠ j := by
  have h := host_no_effect hb hreq (sys_run_inv hrun (fun l hl => host_used (hu l hl)) (sysInv_new (withHost a H) S c0))
    (sys_run_ctxInv hrun (ctxInv_new c0 S)) hq hk hn
  exact ⟨h.1, fun i x hx => h.2 i x (by rw [sys_run_new_old hrun]; exact Nat.zero_le _) hx⟩

/-- The request of the first call, which changed nothing. -/
example : ∃ s, sys_run exSys exOtherRun (Sys.new 0) = some s ∧ ∃ cl hdr, RequestOf s 0 cl 0 hdr ∧
    cl.rqst.header.key = .Key8 (exKey 0x13#8) ∧ 0 < s.taken := by
  have h : (sys_run exSys exOtherRun (Sys.new 0)).map (fun s => (s.taken, s.client.tx, s.client.calls.map (·.rqst))) =
      some (2, [[0xE0, 0x13, 0, 0, 0, 0, 0, 0, 0, 0, 0, 0, 0, 1], [0xE0, 3, 0, 0, 0, 0, 0, 0, 0, 1, 0, 0, 0, 7]],
        [⟨⟨.Key8 (exKey 0x13#8), .Seq4 0⟩, [1]⟩, ⟨⟨.Key8 (exKey 3#8), .Seq4 1⟩, [7]⟩]) := by decide +kernel
  obtain ⟨s, e1, e2⟩ := Option.map_eq_some_iff.mp h
  simp only [Prod.mk.injEq] at e2
  obtain ⟨e2, e3, e4⟩ := e2
  obtain ⟨x, y, hc⟩ : ∃ x y, s.client.calls = [x, y] := by
    match hc : s.client.calls with
    | [x, y] => exact ⟨x, y, rfl⟩
    | [] | [_] | _ :: _ :: _ :: _ => rw [hc] at e4; simp at e4
  · rw [hc] at e4
    simp only [List.map_cons, List.map_nil, List.cons.injEq, and_true] at e4
    obtain ⟨f1, f2⟩ := e4
    refine ⟨s, e1, x, ⟨.Key8 (exKey 0x13#8), .Seq4 0⟩, ⟨by rw [hc]; rfl, ⟨_, by rw [e3]; rfl, ?_⟩, ⟨8, ?_⟩, by rw [f1], ?_⟩, by rw [f1], by omega⟩
    · rw [f1]; exact (isFrame_iff ..).mpr rfl
    · rw [f1]; decide
    · intro c' cl' hc' e
      rw [hc] at hc'
      match c', hc' with
      | 0, _ => rfl
      | 1, hc' => cases hc'; rw [f2] at e; exact absurd e (by decide)
      | _ + 2, hc' => cases hc'

/-- C98 as stated, second half: if the keys of the two versions differ (in full), whatever the system does by itself, it can go on
to a state in which it can do nothing more and all calls have returned. -/
def C98Answered : Prop :=
  ∀ (V E SC Ctx : Type) (a : App V E SC Ctx) (S : SysCfg V E SC Ctx) (H : HostIcd), SoundBoard a S → Fits a S → 0 < S.cfg.outgoing_depth →
  RequestsApart a H 8 → AnswersApart a H 8 → ∀ (ls : List (SLabel V)) (c0 : Ctx) (s : Sys V E SC Ctx), (∀ l ∈ ls, HostUses a H l) →
    (∀ l ∈ ls, HostListens H l) → sys_run S ls (Sys.new c0) = some s → s.client.calls.length < 2 ^ 32 → AtRest s →
    ∀ cl ∈ s.client.calls, cl.phase = .dropped ∨ ∃ err f i, result cl = some (err, f, i)

/-- C98: if the keys differ at the lengths used on the wire and no endpoint has only its response changed, the system left to itself
comes to an end with every call answered, whatever it has done by itself; calls of which the board does not handle the request or
has another response to it with an error. -/
theorem c98_answered_partial (a : App V E SC Ctx) (S : SysCfg V E SC Ctx) (H : HostIcd) (hb : SoundBoard a S) (hfit : Fits a S)
    (hdepth : 0 < S.cfg.outgoing_depth) (hreq : RequestsApart a H (keyLen S.disp.n)) (hresp : AnswersApart a H (keyLen S.kkind))
    (hsame : SameAnswers a H) {ls : List (SLabel V)} {c0 : Ctx} {s : Sys V E SC Ctx} (hu : ∀ l ∈ ls, HostUses a H l)
    (hl : ∀ l ∈ ls, HostListens H l) (hrun : sys_run S ls (Sys.new c0) = some s) (hlen : s.client.calls.length < 2 ^ 32) (hopen : Open s)
    {own : List (SLabel V)} {t : Sys V E SC Ctx} (ho : SysOwnRun S s own t) :
    (SysStuck S t → AtRest t) ∧
    ∃ more u, SysOwnRun S t more u ∧ SysStuck S u ∧ u.client.calls.length = s.client.calls.length ∧
      ∀ cl ∈ u.client.calls, cl.phase = .dropped ∨ ∃ err f i, result cl = some (err, f, i) ∧
        ∀ req, cl.rqst.header.key = .Key8 req → (req, cl.resp_key) ∉ handledPairs S.disp → err = true := by
  have hR : Routes a S.disp := (dispatches hb.disp).toRoutes
  have hD := host_dispatches hR hreq hsame
  have hdecl := host_declared hb.decl H
  have hfit := host_fits hfit hresp
  have hu' := fun l hl => host_used (hu l hl)
  have inv := sys_run_inv hrun hu' (sysInv_new (withHost a H) S c0)
  have lv := sys_run_live hD hdecl hfit hrun hu' (fun l h => host_listens (hl l h)) (sysInv_new (withHost a H) S c0)
    (liveInv_new (withHost a H) S c0) hlen
  obtain ⟨h1, more, u, h2, h3, h4, h5⟩ := own_answered hD hdecl hfit hdepth inv lv hlen hopen ho
  refine ⟨h1, more, u, h2, h3, h4, fun cl hcl => ?_⟩
  rcases h5 cl hcl with h | ⟨err, f, i, h⟩
  · exact .inl h
  refine .inr ⟨err, f, i, h, fun req hk hn => ?_⟩
  cases err with
  | true => rfl
  | false =>
    obtain ⟨c, hc⟩ := List.mem_iff_getElem?.mp hcl
    obtain ⟨i1, i2, _, i4⟩ := own_run_inv hD hdecl hfit ho inv lv hlen
    obtain ⟨k1, _, _, _⟩ := own_run_inv hD hdecl hfit h2 i1 i2 (by omega)
    obtain ⟨o, hm, ⟨j, hdr, req', g1, g2, g3, g4⟩ | ⟨_, k, j, t', g, _⟩⟩ := reply_begins (withHost a H) S hD hdecl (host_apart hresp)
      (host_resp_err hresp) k1 (by omega) hc h
    · rw [hk] at g3
      cases g3
      exact absurd (reply_pair g4) hn
    · have := g.earlier
      rw [own_run_old h2, own_run_old ho, sys_run_new_old hrun] at this
      exact absurd this (Nat.not_lt_zero _)

/-- Three calls whose requests are in the queue: the new endpoint, endpoint 3 and endpoint 4 with the other request. -/
def exOtherLive : List (SLabel Nat) :=
  [.client (.sub_excl (exKey 0x96#8) 4)] ++ sysCall 0 0x13#8 0x93#8 [1] ++ sysCall 1 3#8 0x83#8 [7] ++ sysCall 2 0x14#8 0x84#8 [1]

example : SoundBoard exSysApp exSys ∧ Fits exSysApp exSys ∧ 0 < exSys.cfg.outgoing_depth ∧
    RequestsApart exSysApp exOther (keyLen exSys.disp.n) ∧ AnswersApart exSysApp exOther (keyLen exSys.kkind) ∧ SameAnswers exSysApp exOther ∧
    (∀ l ∈ exOtherLive, HostUses exSysApp exOther l) ∧ (∀ l ∈ exOtherLive, HostListens exOther l) ∧
    ∃ s, sys_run exSys exOtherLive (Sys.new 0) = some s ∧ s.client.calls.length = 3 ∧ Open s ∧ SysOwnRun exSys s [] s := by
  have h : (sys_run exSys exOtherLive (Sys.new 0)).map (fun s => (s.client.calls.length, s.client.stopped, s.client.handles)) =
      some (3, false, true) := by decide +kernel
  obtain ⟨s, e1, e2⟩ := Option.map_eq_some_iff.mp h
  simp only [Prod.mk.injEq] at e2
  have hs : SameAnswers exSysApp exOther := by unfold SameAnswers; decide +kernel
  exact ⟨exSys_sound, exSys_fits, by decide, exOther_requests, exOther_answers, hs, by decide, by decide, s, e1, e2.1, ⟨e2.2.1, e2.2.2⟩, .nil _⟩

/-- C98: a subscription to a topic the board does not send receives nothing. -/
theorem c98_other_topics (a : App V E SC Ctx) (S : SysCfg V E SC Ctx) (H : HostIcd) (hb : SoundBoard a S)
    {ls : List (SLabel V)} {c0 : Ctx} {s : Sys V E SC Ctx} (hu : ∀ l ∈ ls, HostUses a H l) (hrun : sys_run S ls (Sys.new c0) = some s)
    {key : Key} (hkey : ∀ k ∈ a.endpoint_list.endpoints.map (·.resp) ++ a.topic_out_list.topics.map (·.key),
      short (keyLen S.kkind) k ≠ short (keyLen S.kkind) key) (herr : short (keyLen S.kkind) a.std.error ≠ short (keyLen S.kkind) key)
    {id : Nat} :
    (∀ ch, s.client.subs.chans[id]? = some ch → ch.key = key → received S.cfg id (clientSteps ls) Client.new = [] ∧ ch.queue = []) ∧
    (∀ r, s.client.subs.brxs[id]? = some r → r.key = key → receivedMulti S.cfg id (clientSteps ls) Client.new = [] ∧ r.pending = []) := by
  have hR : Routes a S.disp := (dispatches hb.disp).toRoutes
  have inv := sys_run_inv hrun (fun l hl => host_used (H := { H with topics_out := [] }) (by
    have := hu l hl
    cases l with
    | client l => cases l <;> exact this
    | _ => exact this)) (sysInv_new (withHost a { H with topics_out := [] }) S c0)
  obtain ⟨z, w, _⟩ := watch_run hrun (ordInv_start S (s := (Sys.new c0 : Sys V E SC Ctx)) rfl rfl rfl).watch
  have hnone := arrived_not hR hb.decl inv w hkey herr
  have hempty : ∀ since, topicPart key since s.client.subs.arrived = [] := fun since =>
    List.filter_eq_nil_iff.mpr fun f hf => by simpa using hnone f (List.mem_of_mem_drop hf)
  have hcl : run S.cfg (clientSteps ls) Client.new = some s.client := client_run hrun
  refine ⟨fun ch hch e => ?_, fun r hr e => ?_⟩
  · have := c40_delivery_order hcl hch
    rw [e, hempty, List.sublist_nil] at this
    exact List.append_eq_nil_iff.mp this
  · have := c40_multi_delivery_order hcl hr
    rw [e, hempty, List.sublist_nil] at this
    exact List.append_eq_nil_iff.mp this

/-- The subscription of the first run is one to a topic the board does not send, and the board has sent something. -/
example : (∀ k ∈ exSysApp.endpoint_list.endpoints.map (·.resp) ++ exSysApp.topic_out_list.topics.map (·.key),
      short (keyLen exSys.kkind) k ≠ short (keyLen exSys.kkind) (exKey 0x96#8)) ∧
    short (keyLen exSys.kkind) exSysApp.std.error ≠ short (keyLen exSys.kkind) (exKey 0x96#8) ∧
    ∃ s, sys_run exSys exOtherRun (Sys.new 0) = some s ∧ s.outs.length = 3 ∧ ∃ ch, s.client.subs.chans[0]? = some ch ∧ ch.key = exKey 0x96#8 := by
  have h : (sys_run exSys exOtherRun (Sys.new 0)).map (fun s => (s.outs.length, (s.client.subs.chans[0]?).map (·.key))) =
      some (3, some (exKey 0x96#8)) := by decide +kernel
  obtain ⟨s, e1, e2⟩ := Option.map_eq_some_iff.mp h
  simp only [Prod.mk.injEq] at e2
  obtain ⟨ch, e3, e4⟩ := Option.map_eq_some_iff.mp e2.2
  exact ⟨by decide, by decide, s, e1, e2.1, ch, e3, e4⟩

/-! ### Short keys, and a changed response -/

/-- A host with an endpoint that is none of the board's, with keys that are those of endpoint 3 when shortened to one byte. -/
def exClose : HostIcd where
  endpoints := [⟨[], ⟨0#8, 3#8, 0#8, 0#8, 0#8, 0#8, 0#8, 0#8⟩, ⟨0#8, 0x83#8, 0#8, 0#8, 0#8, 0#8, 0#8, 0#8⟩⟩]
  topics_in := []
  topics_out := []

def exCloseRun : List (SLabel Nat) :=
  [.client (.call_begin ⟨0#8, 3#8, 0#8, 0#8, 0#8, 0#8, 0#8, 0#8⟩ ⟨0#8, 0x83#8, 0#8, 0#8, 0#8, 0#8, 0#8, 0#8⟩ [7]), .client (.call_kind 0), .client (.call_reg_ok 0),
    .client (.call_reg_err 0), .client (.call_send 0)] ++ sysSend ++ [.serve]

/-- C98 is false as stated: the dispatcher compares shortened keys, which are chosen to tell the board's own keys apart.  A call of
an endpoint that is none of the board's runs the handler of another one, although the host sent its key in full. -/
theorem c98_not_misread_false : ¬ C98NotMisread := by
  intro hall
  have h : (sys_run exSys exCloseRun (Sys.new 0)).map (fun s => (s.srv.ctx, s.client.tx, s.client.calls.map (·.rqst.header.key))) =
      some (1, [[0xE0, 0, 3, 0, 0, 0, 0, 0, 0, 0, 0, 0, 0, 7]], [.Key8 ⟨0#8, 3#8, 0#8, 0#8, 0#8, 0#8, 0#8, 0#8⟩]) := by decide +kernel
  obtain ⟨s, e1, e2⟩ := Option.map_eq_some_iff.mp h
  simp only [Prod.mk.injEq] at e2
  obtain ⟨_, e3, e4⟩ := e2
  have hl : s.client.calls.length = 1 := by simpa using congrArg List.length e4
  have hr : RequestsApart exSysApp exClose 8 := ⟨by decide +kernel, by decide +kernel⟩
  have ha : AnswersApart exSysApp exClose 8 := ⟨⟨by decide +kernel, by decide +kernel⟩, by decide +kernel⟩
  obtain ⟨c, cl, h1, h2, _⟩ := hall Nat WireTxErrorKind Nat Nat exSysApp exSys exClose exSys_sound hr ha exCloseRun 0 s (by decide) e1
    (by rw [hl]; decide) 0 [0xE0, 0, 3, 0, 0, 0, 0, 0, 0, 0, 0, 0, 0, 7] [7] ⟨.Key8 ⟨0#8, 3#8, 0#8, 0#8, 0#8, 0#8, 0#8, 0#8⟩, .Seq4 0⟩ exBlocking
    (by rw [e3]; rfl) ((isFrame_iff ..).mpr rfl) ⟨by unfold LongEnough; decide, by unfold NotStd; decide, by decide, [], _, rfl, fun _ h => by cases h⟩
  have hm : cl.rqst.header.key ∈ s.client.calls.map (·.rqst.header.key) :=
    List.mem_map.mpr ⟨cl, List.mem_iff_getElem?.mpr ⟨c, h1.call⟩, rfl⟩
  rw [e4, h2] at hm
  exact absurd hm (by decide)

/-- The reply of the other endpoint is then returned as that to the call. -/
theorem c98_misread_reply : RequestsApart exSysApp exClose 8 ∧ AnswersApart exSysApp exClose 8 ∧
    (∀ l ∈ exCloseRun ++ ([.flush] ++ sysRecv [0x20, 0x83, 0, 0, 0, 0, 7] (some ⟨0, false⟩) ++ [.client (.call_ok 0)]), HostUses exSysApp exClose l) ∧
    ∃ s, sys_run exSys (exCloseRun ++ ([.flush] ++ sysRecv [0x20, 0x83, 0, 0, 0, 0, 7] (some ⟨0, false⟩) ++ [.client (.call_ok 0)])) (Sys.new 0) = some s ∧
      s.client.calls.map result = [some (false, ⟨⟨.Key1 ⟨0x83⟩, .Seq4 0⟩, [7]⟩, 0)] ∧
      ∀ r ∈ exClose.endpoints, (r.req, r.resp) ∉ handledPairs exSys.disp := by
  have h : (sys_run exSys (exCloseRun ++ ([.flush] ++ sysRecv [0x20, 0x83, 0, 0, 0, 0, 7] (some ⟨0, false⟩) ++ [.client (.call_ok 0)])) (Sys.new 0)).map
      (fun s => s.client.calls.map result) = some [some (false, ⟨⟨.Key1 ⟨0x83⟩, .Seq4 0⟩, [7]⟩, 0)] := by decide +kernel
  obtain ⟨s, e1, e2⟩ := Option.map_eq_some_iff.mp h
  exact ⟨⟨by decide +kernel, by decide +kernel⟩, ⟨⟨by decide +kernel, by decide +kernel⟩, by decide +kernel⟩, by decide, s, e1, e2, by decide +kernel⟩

/-- A host to which endpoint 3 has another response. -/
def exNewAnswer : HostIcd where
  endpoints := [⟨[], exKey 3#8, exKey 0x93#8⟩]
  topics_in := []
  topics_out := []

def exNewAnswerRun : List (SLabel Nat) :=
  sysCall 0 3#8 0x93#8 [7] ++ sysSend ++ [.serve, .flush] ++ sysRecv [0x20, 0x83, 0, 0, 0, 0, 7] none

/-- C98 is false as stated: if only the response has changed, the board runs the handler and sends its reply, for which nobody
waits; the call does not return. -/
theorem c98_answered_false : ¬ C98Answered := by
  intro hall
  have h : (sys_run exSys exNewAnswerRun (Sys.new 0)).map (fun s => (waitsForEver s, s.client.calls.length)) = some (true, 1) := by decide +kernel
  obtain ⟨s, e1, e2⟩ := Option.map_eq_some_iff.mp h
  simp only [Prod.mk.injEq] at e2
  obtain ⟨e2, e3⟩ := e2
  obtain ⟨h1, cl, k, h2, h3⟩ := waitsForEver_iff e2
  have hr : RequestsApart exSysApp exNewAnswer 8 := ⟨by decide +kernel, by decide +kernel⟩
  have ha : AnswersApart exSysApp exNewAnswer 8 := ⟨⟨by decide +kernel, by decide +kernel⟩, by decide +kernel⟩
  rcases hall Nat WireTxErrorKind Nat Nat exSysApp exSys exNewAnswer exSys_sound exSys_fits (by decide) hr ha exNewAnswerRun 0 s (by decide)
    (by decide) e1 (by rw [e3]; decide) h1 cl (List.mem_iff_getElem?.mpr ⟨0, h2⟩) with h | ⟨err, f, i, h⟩
  · rw [h3] at h; cases h
  · rw [result, h3] at h; cases h

/-! ### A board that does not handle all it declares -/

/-- C98: a host built with the board's own interface, or a part of it, meets the conditions, whichever of its endpoints and topics
the board handles. -/
theorem c98_declared (a : App V E SC Ctx) (S : SysCfg V E SC Ctx) (H : HostIcd) (hb : SoundBoard a S)
    (he : ∀ r ∈ H.endpoints, r ∈ a.endpoint_list.endpoints) (hi : ∀ t ∈ H.topics_in, t ∈ a.topic_in_list.topics)
    (ho : ∀ t ∈ H.topics_out, t ∈ a.topic_out_list.topics) :
    RequestsApart a H (keyLen S.disp.n) ∧ AnswersApart a H (keyLen S.kkind) ∧ SameAnswers a H := by
  have hD := dispatches hb.disp
  have sub : ∀ {α : Type} {f : α → Key} {xs ys : List α}, (∀ x ∈ xs, x ∈ ys) → ∀ k ∈ ys.map f ++ xs.map f, k ∈ ys.map f := by
    intro α f xs ys h k hk
    rcases List.mem_append.mp hk with hk | hk
    · exact hk
    · obtain ⟨x, hx, e⟩ := List.mem_map.mp hk
      exact List.mem_map.mpr ⟨x, h x hx, e⟩
  have both : ∀ {α β : Type} {f : α → Key} {g : β → Key} {xs ys : List α} {zs ws : List β}, (∀ x ∈ xs, x ∈ ys) → (∀ z ∈ zs, z ∈ ws) →
      ∀ k ∈ (ys.map f ++ xs.map f) ++ (ws.map g ++ zs.map g), k ∈ ys.map f ++ ws.map g := by
    intro α β f g xs ys zs ws h1 h2 k hk
    rcases List.mem_append.mp hk with hk | hk
    · exact List.mem_append_left _ (sub h1 k hk)
    · exact List.mem_append_right _ (sub h2 k hk)
  refine ⟨⟨fun x hx y hy e => hD.apart.same x (both he hi x hx) y (both he hi y hy) e,
      fun x hx y hy => hD.apart.parts x (sub he x hx) y (sub hi y hy)⟩,
    ⟨⟨fun x hx y hy e => hb.apart.same x (both he ho x hx) y (both he ho y hy) e,
      fun x hx y hy => hb.apart.parts x (sub he x hx) y (sub ho y hy)⟩, fun k hk => hb.errs k (both he ho k hk)⟩, fun r hr r' hr' e => ?_⟩
  have hm : ∀ r ∈ a.endpoint_list.endpoints ++ H.endpoints, r ∈ a.endpoint_list.endpoints := fun r hr =>
    (List.mem_append.mp hr).elim id (he r)
  exact hD.answers r (hm r hr) r' (hm r' hr') e

/-- The board's interface with no handlers, as in `minimal.rs` of the example firmware. -/
def exBareApp : App Nat WireTxErrorKind Nat Nat := { exSysApp with eps := [], tps := [] }

def exBareDisp : Dispatcher Nat WireTxErrorKind Nat Nat := { exSysDisp with eps := [], tps := [] }

def exBare : SysCfg Nat WireTxErrorKind Nat Nat := { exSys with disp := exBareDisp }

theorem exBare_ok : define_dispatch exBareApp = .ok exBareDisp := by
  have h : needed_sz exBareApp.sizer = .ok 1 := by decide +kernel
  unfold define_dispatch
  rw [h]
  simp only [Exec.ok_bind, kind_of_sz, if_true, merge_types_eq]
  rfl

/-- A call of endpoint 3 on it gets the error of an unknown key, and the context stays as it is. -/
example : SoundBoard exBareApp exBare ∧ (∃ s, sys_run exBare (sysCall 0 3#8 0x83#8 [7] ++ sysSend ++ [.serve, .flush] ++
      sysRecv [0x20, 0xE0, 0, 0, 0, 0, 0xEE] (some ⟨0, true⟩) ++ [.client (.call_err 0)]) (Sys.new 0) = some s ∧
      s.client.calls.map result = [some (true, ⟨⟨.Key1 ⟨0xE0⟩, .Seq4 0⟩, [0xEE]⟩, 0)] ∧ contexts s = [0, 0]) ∧
    exKey 3#8 ∉ handledKeys exBare.disp := by
  refine ⟨⟨exBare_ok, ⟨by decide, by decide, by decide, by decide, fun t ht => by cases ht⟩, rfl, exSysApp_apart, by decide⟩, ?_, by decide⟩
  have h : (sys_run exBare (sysCall 0 3#8 0x83#8 [7] ++ sysSend ++ [.serve, .flush] ++ sysRecv [0x20, 0xE0, 0, 0, 0, 0, 0xEE] (some ⟨0, true⟩) ++
      [.client (.call_err 0)]) (Sys.new 0)).map (fun s => (s.client.calls.map result, contexts s)) =
      some ([some (true, ⟨⟨.Key1 ⟨0xE0⟩, .Seq4 0⟩, [0xEE]⟩, 0)], [0, 0]) := by decide +kernel
  obtain ⟨s, e1, e2⟩ := Option.map_eq_some_iff.mp h
  simp only [Prod.mk.injEq] at e2
  exact ⟨s, e1, e2⟩

end PRpc.Props
