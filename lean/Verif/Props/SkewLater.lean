import Verif.Lemmas.SkewLater
import Verif.Props.Skew
import Verif.Props.Session
/-! C108: a board and hosts of different versions, one after the other. -/

namespace PRpc.Props

open Spec

variable {V E SC Ctx : Type}

/-- C108: whatever versions the earlier hosts had, the board runs the handler of an endpoint only for calls of exactly this endpoint,
that of a topic only for publications of exactly this topic, and it answers pings and requests for the schemas only if that is what
they are. -/
theorem c108_not_misread (a : App V E SC Ctx) (S : SysCfg V E SC Ctx) (H : HostIcd) (hb : SoundBoard a S)
    (hreq : RequestsApart a H (keyLen S.disp.n)) {es : List (HostIcd × Sys V E SC Ctx)} {s0 : Sys V E SC Ctx} (h0 : HostSessions a S es s0)
    {ls : List (SLabel V)} {s : Sys V E SC Ctx} (hu : ∀ l ∈ ls, HostUses a H l)
    (hrun : sys_run S ls s0 = some s) (hlen : s.client.calls.length < 2 ^ 32) {j : Nat} {b body : Bytes} {hdr : VarHeader}
    (hj : s.client.tx[j]? = some b) (hf : IsFrame b hdr body) :
    (∀ h, ForEndpoint S.disp hdr h → ∃ c cl, RequestOf s c cl j hdr ∧ cl.rqst.header.key = .Key8 h.req ∧ cl.rqst.body = body) ∧
    (∀ t, ForTopic S.disp hdr t → ∃ (p : Nat) (pb : Pub), s.client.pubs[p]? = some pb ∧ pb.orig.header.key = .Key8 t.key ∧
      pb.orig.header.seq_no = hdr.seq_no ∧ pb.orig.body = body) ∧
    (∀ k, k = a.std.ping_req ∨ k = a.std.schemas_req → LongEnough S.disp hdr → rxShort S.disp hdr = short (keyLen S.disp.n) k →
      ∃ c cl, RequestOf s c cl j hdr ∧ cl.rqst.header.key = .Key8 k ∧ cl.rqst.body = body) :=
  host_not_misread hb hreq (sys_run_inv hrun (fun l hl => host_used (hu l hl)) ((host_start h0).inv H)) hlen hj hf

/-- C108: a reply a call got is the board's reply to its own request, and the board handles this endpoint with this response; or it is
that of a task spawned for a call of an earlier host, of an endpoint with the same response key, with the same sequence number. -/
theorem c108_replies (a : App V E SC Ctx) (S : SysCfg V E SC Ctx) (H : HostIcd) (hb : SoundBoard a S)
    (hreq : RequestsApart a H (keyLen S.disp.n)) (hresp : AnswersApart a H (keyLen S.kkind)) {es : List (HostIcd × Sys V E SC Ctx)}
    {s0 : Sys V E SC Ctx} (h0 : HostSessions a S es s0) {ls : List (SLabel V)}
    {s : Sys V E SC Ctx} (hu : ∀ l ∈ ls, HostUses a H l) (hrun : sys_run S ls s0 = some s)
    (hlen : s.client.calls.length < 2 ^ 32) {c : Nat} {cl : Call} {f : RpcFrame} {i : Nat} (hc : s.client.calls[c]? = some cl)
    (hres : result cl = some (false, f, i)) :
    ∃ o ∈ s.outs, CarriesPart S.enc o f ∧
      ((∃ req, cl.rqst.header.key = .Key8 req ∧ (req, cl.resp_key) ∈ handledPairs S.disp ∧
          ∃ j hdr, RequestOf s c cl j hdr ∧ ReplyTo S.disp s j hdr cl.rqst.body req cl.resp_key o) ∨
        ∃ k j t, StaleReply S.disp s cl.resp_key o k j t ∧ ∃ x ∈ es, ∃ c' cl', SameNumber S.disp x.2 c' cl' cl j t) := by
  have hR : Routes a S.disp := (dispatches hb.disp).toRoutes
  have st := host_start h0
  have inv := sys_run_inv hrun (fun l hl => host_used (hu l hl)) (st.inv H)
  obtain ⟨o, ho, ⟨j, hdr, req, h1, h2, h3, h4⟩ | ⟨h1, k, j, t, h2, h3⟩⟩ := reply_begins (withHost a H) S (host_receives hR hreq)
    (host_declared hb.decl H) (host_apart hresp) (host_resp_err hresp) inv hlen hc hres
  · exact ⟨o, ho, h1, .inl ⟨req, h3, reply_pair h4, j, hdr, h2, h4⟩⟩
  · exact ⟨o, ho, h1, .inr ⟨k, j, t, h2, host_stale hb st hrun h2 h3⟩⟩

/-- C108: so a call of an endpoint the board does not handle, or handles with another response, returns no reply, unless that of a
task of an earlier session, of which there is none if the board spawns no task for an endpoint of this response. -/
theorem c108_unknown_no_reply (a : App V E SC Ctx) (S : SysCfg V E SC Ctx) (H : HostIcd) (hb : SoundBoard a S)
    (hreq : RequestsApart a H (keyLen S.disp.n)) (hresp : AnswersApart a H (keyLen S.kkind)) {es : List (HostIcd × Sys V E SC Ctx)}
    {s0 : Sys V E SC Ctx} (h0 : HostSessions a S es s0) {ls : List (SLabel V)}
    {s : Sys V E SC Ctx} (hu : ∀ l ∈ ls, HostUses a H l) (hrun : sys_run S ls s0 = some s)
    (hlen : s.client.calls.length < 2 ^ 32) {c : Nat} {cl : Call} {req : Key} (hc : s.client.calls[c]? = some cl)
    (hk : cl.rqst.header.key = .Key8 req) (hn : (req, cl.resp_key) ∉ handledPairs S.disp)
    (hnone : es = [] ∨ ∀ h ∈ S.disp.eps, h.resp = cl.resp_key → h.flavor ≠ .spawn) :
    ∀ f i, result cl ≠ some (false, f, i) := by
  intro f i hres
  obtain ⟨o, _, _, ⟨req', e, hm, _⟩ | ⟨k, j, t, _, x, hx, c', cl', h⟩⟩ := c108_replies a S H hb hreq hresp h0 hu hrun hlen hc hres
  · rw [hk] at e
    cases e
    exact hn hm
  · rcases hnone with rfl | hnone
    · cases hx
    · obtain ⟨g, hg, _, hfl, _, hr, _⟩ := h.handler
      exact hnone g hg hr hfl

/-- C108: an error a call gets is one the board sent in this session, for the call's request or for a publication with its sequence
number; for a request of an endpoint the board does not handle it says so. -/
theorem c108_errors (a : App V E SC Ctx) (S : SysCfg V E SC Ctx) (H : HostIcd) (hb : SoundBoard a S)
    (hreq : RequestsApart a H (keyLen S.disp.n)) (hresp : AnswersApart a H (keyLen S.kkind)) {es : List (HostIcd × Sys V E SC Ctx)}
    {s0 : Sys V E SC Ctx} (h0 : HostSessions a S es s0) {ls : List (SLabel V)}
    {s : Sys V E SC Ctx} (hu : ∀ l ∈ ls, HostUses a H l) (hrun : sys_run S ls s0 = some s)
    (hlen : s.client.calls.length < 2 ^ 32) {c : Nat} {cl : Call} {f : RpcFrame} {i : Nat} (hc : s.client.calls[c]? = some cl)
    (hres : result cl = some (true, f, i)) :
    ∃ o ∈ s.outs, ∃ j hdr body e, CarriesPart S.enc o f ∧ o.src = .req j ∧ o.frame.body = .err e ∧
      RefusedAt S.disp S.kkind s j hdr body e ∧
      ((RequestOf s c cl j hdr ∧ body = cl.rqst.body ∧ ∀ req, cl.rqst.header.key = .Key8 req →
          (req ∉ handledKeys S.disp → (e = .UnknownKey ∨ e = .KeyTooSmall) ∧ (keyLen S.disp.n ≤ keyLen S.kkind → e = .UnknownKey)) ∧
          (req ∈ handledKeys S.disp → keyLen S.disp.n ≤ keyLen S.kkind → e = .DeserFailed ∨ e = .SerFailed ∨ e = .FailedToSpawn)) ∨
        ∃ (p : Nat) (pb : Pub), s.client.pubs[p]? = some pb ∧ hdr.seq_no = pb.orig.header.seq_no ∧
          seqVal pb.orig.header.seq_no = seqVal cl.rqst.header.seq_no) := by
  have st := host_start h0
  obtain ⟨c0, hctx⟩ := st.ctx
  exact host_errors hb hreq hresp (sys_run_inv hrun (fun l hl => host_used (hu l hl)) (st.inv H)) (sys_run_errInv hrun hctx st.errs) hlen hc hres

/-- C108: a request whose key the board does not handle changes nothing there: the context of the handlers stays as it is, and no
task is spawned for it. -/
theorem c108_unknown_no_effect (a : App V E SC Ctx) (S : SysCfg V E SC Ctx) (H : HostIcd) (hb : SoundBoard a S)
    (hreq : RequestsApart a H (keyLen S.disp.n)) {es : List (HostIcd × Sys V E SC Ctx)}
    {s0 : Sys V E SC Ctx} (h0 : HostSessions a S es s0) {ls : List (SLabel V)}
    {s : Sys V E SC Ctx} (hu : ∀ l ∈ ls, HostUses a H l) (hrun : sys_run S ls s0 = some s)
    {c j : Nat} {cl : Call} {hdr : VarHeader} {req : Key} (hq : RequestOf s c cl j hdr)
    (hk : cl.rqst.header.key = .Key8 req) (hn : req ∉ handledKeys S.disp) :
    (j < s.taken → ∃ ctx, (contexts s)[j]? = some ctx ∧ (contexts s)[j + 1]? = some ctx) ∧
    ∀ (i : Nat) (x : Nat × Task V SC), s0.tasks.length ≤ i → s.tasks[i]? = some x → x.1 ≠ j := by
  have st := host_start h0
  obtain ⟨c0, hctx⟩ := st.ctx
  have h := host_no_effect hb hreq (sys_run_inv hrun (fun l hl => host_used (hu l hl)) (st.inv H)) (sys_run_ctxInv hrun hctx) hq hk hn
  exact ⟨h.1, fun i x hi hx => h.2 i x (by rw [sys_run_old hrun, st.old]; exact hi) hx⟩

/-- C108: and whatever the system does by itself, it can go on to a state in which it can do nothing more and all calls of the host have
returned. -/
theorem c108_answered (a : App V E SC Ctx) (S : SysCfg V E SC Ctx) (H : HostIcd) (hb : SoundBoard a S) (hfit : Fits a S)
    (hdepth : 0 < S.cfg.outgoing_depth) (hreq : RequestsApart a H (keyLen S.disp.n)) (hresp : AnswersApart a H (keyLen S.kkind))
    (hsame : SameAnswers a H) {es : List (HostIcd × Sys V E SC Ctx)} {s0 : Sys V E SC Ctx} (h0 : HostSessions a S es s0)
    {ls : List (SLabel V)} {s : Sys V E SC Ctx} (hu : ∀ l ∈ ls, HostUses a H l)
    (hl : ∀ l ∈ ls, HostListens H l) (hrun : sys_run S ls s0 = some s) (hlen : s.client.calls.length < 2 ^ 32) (hopen : Open s)
    {own : List (SLabel V)} {t : Sys V E SC Ctx} (ho : SysOwnRun S s own t) :
    (SysStuck S t → AtRest t) ∧
    ∃ more u, SysOwnRun S t more u ∧ SysStuck S u ∧ u.client.calls.length = s.client.calls.length ∧
      ∀ cl ∈ u.client.calls, cl.phase = .dropped ∨ ∃ err f i, result cl = some (err, f, i) := by
  have st := host_start h0
  have hD := host_dispatches (dispatches hb.disp).toRoutes hreq hsame
  have hdecl := host_declared hb.decl H
  have hfit := host_fits hfit hresp
  have hu' := fun l hl => host_used (hu l hl)
  exact own_answered hD hdecl hfit hdepth (sys_run_inv hrun hu' (st.inv H))
    (sys_run_live hD hdecl hfit hrun hu' (fun l h => host_listens (hl l h)) (st.inv H) (st.live H) hlen) hlen hopen ho

/-! ### Concrete hosts -/

/-- The first host knows endpoint 5 as the board does. -/
def exOlder : HostIcd := ⟨[⟨[], exKey 5#8, exKey 0x85#8⟩], [], []⟩

/-- The second host knows endpoint 5 with another request and the same response, and endpoint 3 as the board does. -/
def exNewer : HostIcd := ⟨[⟨[], exKey 0x15#8, exKey 0x85#8⟩, ⟨[], exKey 3#8, exKey 0x83#8⟩], [], []⟩

theorem exOlder_requests : RequestsApart exSysApp exOlder (keyLen exSys.disp.n) := ⟨by decide +kernel, by decide +kernel⟩

theorem exNewer_requests : RequestsApart exSysApp exNewer (keyLen exSys.disp.n) := ⟨by decide +kernel, by decide +kernel⟩

theorem exNewer_answers : AnswersApart exSysApp exNewer (keyLen exSys.kkind) := ⟨⟨by decide +kernel, by decide +kernel⟩, by decide +kernel⟩

/-- The second host calls its endpoint, which the board does not know, and endpoint 3. -/
def exNewerRun : List (SLabel Nat) :=
  sysCall 0 0x15#8 0x85#8 [1] ++ sysCall 1 3#8 0x83#8 [7] ++ sysSend ++ sysSend ++ [.serve, .flush, .serve, .flush] ++
  sysRecv [0x20, 0xE0, 0, 0, 0, 0, 0xEE] (some ⟨0, true⟩) ++ sysRecv [0x20, 0x83, 1, 0, 0, 0, 107] (some ⟨1, false⟩) ++
  [.client (.call_err 0), .client (.call_ok 1)]

/-- The second host calls its endpoint; the task of the first one replies. -/
def exNewerStale : List (SLabel Nat) :=
  sysCall 0 0x15#8 0x85#8 [2] ++ sysSend ++ [.task_reply 0 11] ++ sysRecv [0x20, 0x85, 0, 0, 0, 0, 11] (some ⟨0, false⟩) ++
  [.client (.call_ok 0)]

/-- A session of the first host and one of the second. -/
theorem exHosts {α : Type} {l : List (SLabel Nat)} {g : Sys Nat WireTxErrorKind Nat Nat → α} {x : α}
    (h : ((sys_run exSys exFirst (Sys.new 0)).bind fun s => (sys_run exSys l s.reconnect).map fun t => (s.client.calls.length, g t)) = some (1, x)) :
    ∃ s1 s2, HostSessions exSysApp exSys ([] ++ [(exOlder, s1)]) s1.reconnect ∧ sys_run exSys l s1.reconnect = some s2 ∧ g s2 = x := by
  obtain ⟨s, h1, h⟩ := Option.bind_eq_some_iff.mp h
  obtain ⟨t, h2, h⟩ := Option.map_eq_some_iff.mp h
  simp only [Prod.mk.injEq] at h
  exact ⟨s, t, .next [] _ s exOlder exFirst (.first 0) exOlder_requests (by decide) h1 (by rw [h.1]; decide), h2, h.2⟩

set_option synthInstance.maxSize 1000 in
/-- The theorems apply: in the second session the call of the endpoint the board does not know gets an error, that of endpoint 3 its
reply. -/
example : SoundBoard exSysApp exSys ∧ Fits exSysApp exSys ∧ 0 < exSys.cfg.outgoing_depth ∧ SameAnswers exSysApp exNewer ∧ RequestsApart exSysApp exNewer (keyLen exSys.disp.n) ∧ AnswersApart exSysApp exNewer (keyLen exSys.kkind) ∧
    (∀ l ∈ exNewerRun, HostUses exSysApp exNewer l ∧ HostListens exNewer l) ∧ exKey 0x15#8 ∉ handledKeys exSys.disp ∧
    (exKey 0x15#8, exKey 0x85#8) ∉ handledPairs exSys.disp ∧
    ∃ s1 s2, HostSessions exSysApp exSys ([] ++ [(exOlder, s1)]) s1.reconnect ∧ sys_run exSys exNewerRun s1.reconnect = some s2 ∧
      (s2.client.calls.map result, s2.client.calls.map (·.rqst.header.key), s2.client.tx) =
        ([some (true, ⟨⟨.Key1 ⟨0xE0⟩, .Seq4 0⟩, [0xEE]⟩, 0), some (false, ⟨⟨.Key1 ⟨0x83⟩, .Seq4 1⟩, [107]⟩, 1)],
          [.Key8 (exKey 0x15#8), .Key8 (exKey 3#8)],
          [[0xE0, 0x15, 0, 0, 0, 0, 0, 0, 0, 0, 0, 0, 0, 1], [0xE0, 3, 0, 0, 0, 0, 0, 0, 0, 1, 0, 0, 0, 7]]) :=
  ⟨exSys_sound, exSys_fits, by decide, by unfold SameAnswers; decide +kernel, exNewer_requests, exNewer_answers, by decide, by decide, by decide, exHosts (by decide +kernel)⟩

set_option synthInstance.maxSize 1000 in
/-- C108: the exception occurs.  The call of an endpoint the board does not know returns a reply: that of the task the first host's call
has left, whose endpoint has the same response.  The request has not even been received. -/
theorem c108_stale_reply : (∀ l ∈ exNewerStale, HostUses exSysApp exNewer l) ∧ exKey 0x15#8 ∉ handledKeys exSys.disp ∧
    ∃ s1 s2, HostSessions exSysApp exSys ([] ++ [(exOlder, s1)]) s1.reconnect ∧ sys_run exSys exNewerStale s1.reconnect = some s2 ∧
      (s2.client.calls.map result, s2.client.calls.map (·.rqst.header.key), s2.taken) =
        ([some (false, ⟨⟨.Key1 ⟨0x85⟩, .Seq4 0⟩, [11]⟩, 0)], [.Key8 (exKey 0x15#8)], 0) :=
  ⟨by decide, by decide, exHosts (by decide +kernel)⟩

end PRpc.Props
