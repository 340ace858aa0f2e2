import Verif.Lemmas.Session
import Verif.Props.Live
/-! A server that outlives its clients: C77. -/

namespace PRpc.Props

open Spec

variable {V E SC Ctx : Type}

/-- C77 as stated: a client of a server that has had other clients before gets, for each call that returns a reply, the reply the
handler of its endpoint gave to this call's own request.  (Under what C45 needs for a single session, and with an error key that
differs from the response keys.) -/
def c77_statement : Prop :=
  ∀ (V E SC Ctx : Type) (a : App V E SC Ctx) (S : SysCfg V E SC Ctx), define_dispatch a = .ok S.disp → Declared a S.kkind →
  KeysApart a S → Clean S →
  (∀ r ∈ a.endpoint_list.endpoints, short (keyLen S.kkind) r.resp ≠ short (keyLen S.kkind) a.std.error) →
  ∀ (es : List (Sys V E SC Ctx)) (s0 : Sys V E SC Ctx), Sessions a S es s0 →
  ∀ (ls : List (SLabel V)) (s : Sys V E SC Ctx), (∀ l ∈ ls, Used a l) → sys_run S ls s0 = some s → s.client.calls.length < 2 ^ 32 →
  ∀ (c : Nat) (cl : Call) (f : RpcFrame) (i : Nat), s.client.calls[c]? = some cl → result cl = some (false, f, i) →
    ∃ o ∈ s.outs, ∃ j hdr req, Carries S.enc o f ∧ RequestOf s c cl j hdr ∧ cl.rqst.header.key = .Key8 req ∧
      ReplyTo S.disp s j hdr cl.rqst.body req cl.resp_key o

/-- C77, what holds in every session: the reply a call returned was put on the link in this session, and it is the reply to the
call's own request, or that of a task spawned for an earlier client, to a request of that client with the same sequence number and
for the endpoint of the same response key. -/
theorem c77_replies (a : App V E SC Ctx) (S : SysCfg V E SC Ctx) (hD : define_dispatch a = .ok S.disp)
    (hdecl : Declared a S.kkind) (hapart : KeysApart a S) (hclean : Clean S)
    (hdist : ∀ r ∈ a.endpoint_list.endpoints, short (keyLen S.kkind) r.resp ≠ short (keyLen S.kkind) a.std.error)
    {es : List (Sys V E SC Ctx)} {s0 : Sys V E SC Ctx} (h0 : Sessions a S es s0)
    {ls : List (SLabel V)} {s : Sys V E SC Ctx} (hu : ∀ l ∈ ls, Used a l) (hrun : sys_run S ls s0 = some s)
    (hlen : s.client.calls.length < 2 ^ 32) {c : Nat} {cl : Call} {f : RpcFrame} {i : Nat}
    (hc : s.client.calls[c]? = some cl) (hres : result cl = some (false, f, i)) :
    ∃ o ∈ s.outs, Carries S.enc o f ∧
      ((∃ j hdr req, RequestOf s c cl j hdr ∧ cl.rqst.header.key = .Key8 req ∧ ReplyTo S.disp s j hdr cl.rqst.body req cl.resp_key o) ∨
        ∃ k j t, StaleReply S.disp s cl.resp_key o k j t ∧ ∃ e ∈ es, ∃ c' cl', SameNumber S.disp e c' cl' cl j t) := by
  have st := sessions_start h0
  have inv := sys_run_inv hrun hu st.inv
  obtain ⟨o, ho, h⟩ := reply_begins a S hD hdecl hapart hdist inv hlen hc hres
  have whole : CarriesPart S.enc o f → Carries S.enc o f := fun h => h.whole (clean_whole hclean inv ho h)
  refine ⟨o, ho, ?_⟩
  rcases h with ⟨j, hdr, req, h1, h2⟩ | ⟨h1, k, j, t, h2, h3⟩
  · exact ⟨whole h1, .inl ⟨j, hdr, req, h2⟩⟩
  · refine ⟨whole h1, .inr ⟨k, j, t, h2, ?_⟩⟩
    have hk := h2.earlier
    have ht := h2.task
    obtain ⟨x, hx⟩ := sys_run_tasks hrun
    rw [sys_run_old hrun, st.old] at hk
    rw [hx, List.getElem?_append_left hk] at ht
    obtain ⟨e, he, inve, hle, body, ht, hfor⟩ := st.tasks k j t ht
    obtain ⟨g, hg, hname, hresp⟩ := h2.row
    obtain ⟨c', cl', hreq, hfl, hkey, hdec⟩ := task_request hD hdecl inve hle ht hfor h2.role hg hname
    exact ⟨e, he, c', cl', hreq, by rw [← hreq.seq]; exact h3, g, hg, hname, hfl, hkey, hresp, hdec⟩

/-- C77 for sessions in which no task spawned for an earlier client replies.  Missing: the library does not stop them. -/
theorem c77_own_replies_partial (a : App V E SC Ctx) (S : SysCfg V E SC Ctx) (hD : define_dispatch a = .ok S.disp)
    (hdecl : Declared a S.kkind) (hapart : KeysApart a S) (hclean : Clean S)
    (hdist : ∀ r ∈ a.endpoint_list.endpoints, short (keyLen S.kkind) r.resp ≠ short (keyLen S.kkind) a.std.error)
    {es : List (Sys V E SC Ctx)} {s0 : Sys V E SC Ctx} (h0 : Sessions a S es s0)
    {ls : List (SLabel V)} {s : Sys V E SC Ctx} (hu : ∀ l ∈ ls, Used a l) (hrun : sys_run S ls s0 = some s)
    (hown : OwnTasks s0.tasks.length ls)
    (hlen : s.client.calls.length < 2 ^ 32) {c : Nat} {cl : Call} {f : RpcFrame} {i : Nat}
    (hc : s.client.calls[c]? = some cl) (hres : result cl = some (false, f, i)) :
    ∃ o ∈ s.outs, ∃ j hdr req, Carries S.enc o f ∧ RequestOf s c cl j hdr ∧ cl.rqst.header.key = .Key8 req ∧
      ReplyTo S.disp s j hdr cl.rqst.body req cl.resp_key o := by
  obtain ⟨o, ho, h1, ⟨j, hdr, req, h2⟩ | ⟨k, j, t, h2, _⟩⟩ := c77_replies a S hD hdecl hapart hclean hdist h0 hu hrun hlen hc hres
  · exact ⟨o, ho, j, hdr, req, h1, h2⟩
  · have st := sessions_start h0
    have := sys_run_sources hrun hown (fun o ho => by rw [st.quiet.1, st.quiet.2] at ho; rcases ho with ho | ho <;> cases ho)
      o (.inr ho) k h2.src
    have h3 := h2.earlier
    rw [sys_run_old hrun, st.old] at h3
    omega

/-- C77 for applications without spawned endpoint handlers: there every session is like the first. -/
theorem c77_no_spawned_partial (a : App V E SC Ctx) (S : SysCfg V E SC Ctx) (hD : define_dispatch a = .ok S.disp)
    (hdecl : Declared a S.kkind) (hapart : KeysApart a S) (hclean : Clean S)
    (hdist : ∀ r ∈ a.endpoint_list.endpoints, short (keyLen S.kkind) r.resp ≠ short (keyLen S.kkind) a.std.error)
    (hnone : ∀ h ∈ a.eps, h.flavor ≠ .spawn)
    {es : List (Sys V E SC Ctx)} {s0 : Sys V E SC Ctx} (h0 : Sessions a S es s0)
    {ls : List (SLabel V)} {s : Sys V E SC Ctx} (hu : ∀ l ∈ ls, Used a l) (hrun : sys_run S ls s0 = some s)
    (hlen : s.client.calls.length < 2 ^ 32) {c : Nat} {cl : Call} {f : RpcFrame} {i : Nat}
    (hc : s.client.calls[c]? = some cl) (hres : result cl = some (false, f, i)) :
    ∃ o ∈ s.outs, ∃ j hdr req, Carries S.enc o f ∧ RequestOf s c cl j hdr ∧ cl.rqst.header.key = .Key8 req ∧
      ReplyTo S.disp s j hdr cl.rqst.body req cl.resp_key o := by
  obtain ⟨o, ho, h1, ⟨j, hdr, req, h2⟩ | ⟨k, j, t, _, e, _, c', cl', h3⟩⟩ :=
    c77_replies a S hD hdecl hapart hclean hdist h0 hu hrun hlen hc hres
  · exact ⟨o, ho, j, hdr, req, h1, h2⟩
  · obtain ⟨g, hg, _, hfl, _⟩ := h3.handler
    rw [(define_dispatch_ok hD).2.2.1] at hg
    exact absurd hfl (hnone g hg)

/-- C77 for errors, in every session: an error a call returned is one the server sent in this session, for a message of this client
with the call's sequence number. -/
theorem c77_errors (a : App V E SC Ctx) (S : SysCfg V E SC Ctx) (hD : define_dispatch a = .ok S.disp)
    (hdecl : Declared a S.kkind) (hclean : Clean S) (hcfg : S.cfg.err_key = a.std.error)
    (hdist : ∀ r ∈ a.endpoint_list.endpoints, short (keyLen S.kkind) r.resp ≠ short (keyLen S.kkind) a.std.error)
    (hdist' : ∀ t ∈ a.topic_out_list.topics, short (keyLen S.kkind) t.key ≠ short (keyLen S.kkind) a.std.error)
    {es : List (Sys V E SC Ctx)} {s0 : Sys V E SC Ctx} (h0 : Sessions a S es s0)
    {ls : List (SLabel V)} {s : Sys V E SC Ctx} (hu : ∀ l ∈ ls, Used a l) (hrun : sys_run S ls s0 = some s)
    (hlen : s.client.calls.length < 2 ^ 32) {c : Nat} {cl : Call} {f : RpcFrame} {i : Nat}
    (hc : s.client.calls[c]? = some cl) (hres : result cl = some (true, f, i)) :
    ∃ o ∈ s.outs, ∃ j hdr e, Carries S.enc o f ∧ o.src = .req j ∧ o.frame.body = .err e ∧
      (RequestOf s c cl j hdr ∨
        ∃ (p : Nat) (pb : Pub) (b body : Bytes), s.client.pubs[p]? = some pb ∧ s.client.tx[j]? = some b ∧ IsFrame b hdr body ∧
          hdr.seq_no = pb.orig.header.seq_no ∧ seqVal pb.orig.header.seq_no = seqVal cl.rqst.header.seq_no) := by
  have inv := sys_run_inv hrun hu (sessions_start h0).inv
  obtain ⟨o, ho, j, hdr, e, h1, h2⟩ := error_begins a S hD hdecl hcfg hdist hdist' inv hlen hc hres
  exact ⟨o, ho, j, hdr, e, h1.whole (clean_whole hclean inv ho h1), h2⟩

/-- C77, every session is served: whatever earlier clients did, in a session of an application that fits together the steps of the
system's own end after finitely many, whichever it takes, and every way of taking them leads to a state in which every call was given
up by its caller or has returned a reply or an error frame, whether or not handlers spawned for earlier clients reply. -/
theorem c77_every_call_answered (a : App V E SC Ctx) (S : SysCfg V E SC Ctx) (hD : define_dispatch a = .ok S.disp)
    (hdecl : Declared a S.kkind) (hfit : Fits a S) (hdepth : 0 < S.cfg.outgoing_depth)
    {es : List (Sys V E SC Ctx)} {s0 : Sys V E SC Ctx} (h0 : Sessions a S es s0)
    {ls : List (SLabel V)} {s : Sys V E SC Ctx} (hu : ∀ l ∈ ls, Used a l) (hl : ∀ l ∈ ls, Listens a l)
    (hrun : sys_run S ls s0 = some s) (hlen : s.client.calls.length < 2 ^ 32) (hopen : Open s) :
    (¬ ∃ (f : Nat → Sys V E SC Ctx) (g : Nat → SLabel V), f 0 = s ∧
      ∀ n, SysOwn (f n) (g n) ∧ sys_step S (f n) (g n) = some (f (n + 1))) ∧
    ∀ {own : List (SLabel V)} {t : Sys V E SC Ctx}, SysOwnRun S s own t →
      (SysStuck S t → AtRest t) ∧ ∃ more u, SysOwnRun S t more u ∧ SysStuck S u ∧ u.client.calls.length = s.client.calls.length ∧
        ∀ cl ∈ u.client.calls, cl.phase = .dropped ∨ ∃ err f i, result cl = some (err, f, i) := by
  have inv := sys_run_inv hrun hu (sessions_start h0).inv
  have lv := sys_run_live hD hdecl hfit hrun hu hl (sessions_start h0).inv (sessions_live h0) hlen
  exact ⟨own_finite hD hdecl hfit inv lv hlen, fun ho => own_answered hD hdecl hfit hdepth inv lv hlen hopen ho⟩

/-- C77, the application context is kept: the server takes the first message of a new client with the context it had when the session
before ended. -/
theorem c77_context_kept (a : App V E SC Ctx) (S : SysCfg V E SC Ctx) {es : List (Sys V E SC Ctx)} {e s0 : Sys V E SC Ctx}
    (h0 : Sessions a S (es ++ [e]) s0) {ls : List (SLabel V)} {s : Sys V E SC Ctx} (hrun : sys_run S ls s0 = some s) :
    (s.before = [] ∧ s.srv.ctx = e.srv.ctx) ∨ s.before[0]? = some e.srv.ctx := by
  refine sys_run_ctx hrun ?_
  generalize hes : es ++ [e] = l at h0
  cases h0 with
  | first c => simp at hes
  | next es' s1 s' ls' _ _ _ _ =>
    have := (List.append_inj' hes rfl).2
    cases this
    exact .inl ⟨rfl, rfl⟩

/-! ### Concrete sessions -/

/-- The first client calls the spawned endpoint and goes away before the task replies. -/
def exFirst : List (SLabel Nat) := sysCall 0 5#8 0x85#8 [1] ++ sysSend ++ [.serve]

/-- The second client calls it too; the task of the first one replies, before the server has seen the new request. -/
def exSecond : List (SLabel Nat) :=
  sysCall 0 5#8 0x85#8 [2] ++ sysSend ++ [.task_reply 0 11] ++ sysRecv [0x20, 0x85, 0, 0, 0, 0, 11] (some ⟨0, false⟩) ++
  [.client (.call_ok 0)]

/-- A second client whose own task replies. -/
def exSecond' : List (SLabel Nat) :=
  sysCall 0 5#8 0x85#8 [2] ++ sysSend ++ [.serve, .task_reply 1 22] ++ sysRecv [0x20, 0x85, 0, 0, 0, 0, 22] (some ⟨0, false⟩) ++
  [.client (.call_ok 0)]

/-- A second client whose request the server cannot decode. -/
def exSecondErr : List (SLabel Nat) :=
  sysCall 0 3#8 0x83#8 [1, 2] ++ sysSend ++ [.serve, .flush] ++ sysRecv [0x20, 0xE0, 0, 0, 0, 0, 0xEE] (some ⟨0, true⟩) ++
  [.client (.call_err 0)]

theorem exFirst_run : ∃ s, sys_run exSys exFirst (Sys.new 0) = some s ∧ s.client.calls.length < 2 ^ 32 ∧ s.tasks.length = 1 := by
  have h : (sys_run exSys exFirst (Sys.new 0)).map (fun s => (s.client.calls.length, s.tasks.length)) = some (1, 1) := by decide +kernel
  obtain ⟨s, e1, e2⟩ := Option.map_eq_some_iff.mp h
  simp only [Prod.mk.injEq] at e2
  exact ⟨s, e1, by omega, e2.2⟩

theorem exFirst_session {s : Sys Nat WireTxErrorKind Nat Nat} (h : sys_run exSys exFirst (Sys.new 0) = some s)
    (hl : s.client.calls.length < 2 ^ 32) : Sessions exSysApp exSys [s] s.reconnect :=
  .next [] _ s exFirst (.first 0) (by decide) h hl

/-- A run of the first client's session followed by one of the second's. -/
theorem exTwo {α : Type} {ls : List (SLabel Nat)} {g : Sys Nat WireTxErrorKind Nat Nat → α} {x : α}
    (h : ((sys_run exSys exFirst (Sys.new 0)).bind fun s => sys_run exSys ls s.reconnect).map g = some x) :
    ∃ s1 s2, sys_run exSys exFirst (Sys.new 0) = some s1 ∧ s1.client.calls.length < 2 ^ 32 ∧ s1.tasks.length = 1 ∧
      sys_run exSys ls s1.reconnect = some s2 ∧ g s2 = x := by
  obtain ⟨s, e1, hl, ht⟩ := exFirst_run
  rw [e1] at h
  obtain ⟨s2, e2, e3⟩ := Option.map_eq_some_iff.mp h
  exact ⟨s, s2, e1, hl, ht, e2, e3⟩

set_option synthInstance.maxSize 1000 in
/-- C77 is false: the new client's first call returns what a task of the earlier client sent for that one's first call. -/
theorem c77_own_replies_false : ¬ c77_statement := by
  intro h
  have h0 : ((sys_run exSys exFirst (Sys.new 0)).bind fun s => sys_run exSys exSecond s.reconnect).map
      (fun s => (s.client.calls.map result, s.outs.map Out.src, s.old)) =
      some ([some (false, ⟨⟨.Key1 ⟨0x85⟩, .Seq4 0⟩, [11]⟩, 0)], [.task 0], 1) := by decide +kernel
  obtain ⟨s1, s2, e1, hl1, _, e2, e3⟩ := exTwo h0
  simp only [Prod.mk.injEq] at e3
  obtain ⟨e3, e4, e5⟩ := e3
  have hl : s2.client.calls.length = 1 := by simpa using congrArg List.length e3
  have hr : (s2.client.calls.map result)[0]? = some (some (false, ⟨⟨.Key1 ⟨0x85⟩, .Seq4 0⟩, [11]⟩, 0)) := by rw [e3]; rfl
  rw [List.getElem?_map] at hr
  obtain ⟨cl, hc, hres⟩ := Option.map_eq_some_iff.mp hr
  obtain ⟨o, ho, j, hdr, req, _, _, _, hrep⟩ := h _ _ _ _ exSysApp exSys exSysApp_ok exSysApp_declared exSysApp_apart (fun _ _ => rfl)
    (by decide) _ _ (exFirst_session e1 hl1) exSecond s2 (by decide) e2 (by omega) 0 cl _ _ hc hres
  have hb : o.src = .task 0 := by
    have : o.src ∈ s2.outs.map Out.src := List.mem_map.mpr ⟨o, ho, rfl⟩
    rw [e4] at this
    exact List.mem_singleton.mp this
  cases hrep with
  | called => cases hb
  | spawned _ _ _ _ _ _ _ _ _ _ _ _ hi =>
    cases hb
    omega
  | ping => cases hb
  | schemas => cases hb

set_option synthInstance.maxSize 1000 in
/-- The general theorem applies to that session. -/
example : ∃ s1 s2, Sessions exSysApp exSys [s1] s1.reconnect ∧ (∀ l ∈ exSecond, Used exSysApp l) ∧
    sys_run exSys exSecond s1.reconnect = some s2 ∧ s2.client.calls.length < 2 ^ 32 ∧
    s2.client.calls.map result = [some (false, ⟨⟨.Key1 ⟨0x85⟩, .Seq4 0⟩, [11]⟩, 0)] := by
  have h0 : ((sys_run exSys exFirst (Sys.new 0)).bind fun s => sys_run exSys exSecond s.reconnect).map
      (fun s => s.client.calls.map result) = some [some (false, ⟨⟨.Key1 ⟨0x85⟩, .Seq4 0⟩, [11]⟩, 0)] := by decide +kernel
  obtain ⟨s1, s2, e1, hl1, _, e2, e3⟩ := exTwo h0
  have hl : s2.client.calls.length = 1 := by simpa using congrArg List.length e3
  exact ⟨s1, s2, exFirst_session e1 hl1, by decide, e2, by omega, e3⟩

set_option synthInstance.maxSize 1000 in
/-- The theorem about sessions without replies of earlier tasks applies when the new client's own task replies. -/
example : define_dispatch exSysApp = .ok exSys.disp ∧ Declared exSysApp exSys.kkind ∧ KeysApart exSysApp exSys ∧ Clean exSys ∧
    (∀ r ∈ exSysApp.endpoint_list.endpoints, short (keyLen exSys.kkind) r.resp ≠ short (keyLen exSys.kkind) exSysApp.std.error) ∧
    ∃ s1 s2, Sessions exSysApp exSys [s1] s1.reconnect ∧ (∀ l ∈ exSecond', Used exSysApp l) ∧
    OwnTasks s1.reconnect.tasks.length exSecond' ∧
    sys_run exSys exSecond' s1.reconnect = some s2 ∧ s2.client.calls.length < 2 ^ 32 ∧
    s2.client.calls.map result = [some (false, ⟨⟨.Key1 ⟨0x85⟩, .Seq4 0⟩, [22]⟩, 0)] := by
  have h0 : ((sys_run exSys exFirst (Sys.new 0)).bind fun s => sys_run exSys exSecond' s.reconnect).map
      (fun s => s.client.calls.map result) = some [some (false, ⟨⟨.Key1 ⟨0x85⟩, .Seq4 0⟩, [22]⟩, 0)] := by decide +kernel
  obtain ⟨s1, s2, e1, hl1, ht, e2, e3⟩ := exTwo h0
  have hl : s2.client.calls.length = 1 := by simpa using congrArg List.length e3
  refine ⟨exSysApp_ok, exSysApp_declared, exSysApp_apart, fun _ _ => rfl, by decide, s1, s2, exFirst_session e1 hl1, by decide, ?_, e2,
    by omega, e3⟩
  intro i v hi
  have : i = 1 := by
    simp only [exSecond', sysCall, sysSend, sysRecv, List.mem_append, List.mem_cons, List.not_mem_nil, or_false, reduceCtorEq, false_or,
      SLabel.task_reply.injEq] at hi
    exact hi.1
  show s1.tasks.length ≤ i
  omega

set_option synthInstance.maxSize 1000 in
/-- The theorem about errors applies. -/
example : exSys.cfg.err_key = exSysApp.std.error ∧
    (∀ t ∈ exSysApp.topic_out_list.topics, short (keyLen exSys.kkind) t.key ≠ short (keyLen exSys.kkind) exSysApp.std.error) ∧
    ∃ s1 s2, Sessions exSysApp exSys [s1] s1.reconnect ∧ (∀ l ∈ exSecondErr, Used exSysApp l) ∧
    sys_run exSys exSecondErr s1.reconnect = some s2 ∧ s2.client.calls.map result = [some (true, ⟨⟨.Key1 ⟨0xE0⟩, .Seq4 0⟩, [0xEE]⟩, 0)] := by
  have h0 : ((sys_run exSys exFirst (Sys.new 0)).bind fun s => sys_run exSys exSecondErr s.reconnect).map
      (fun s => s.client.calls.map result) = some [some (true, ⟨⟨.Key1 ⟨0xE0⟩, .Seq4 0⟩, [0xEE]⟩, 0)] := by decide +kernel
  obtain ⟨s1, s2, e1, hl1, _, e2, e3⟩ := exTwo h0
  exact ⟨rfl, by decide, s1, s2, exFirst_session e1 hl1, by decide, e2, e3⟩

set_option synthInstance.maxSize 1000 in
/-- The theorems about answers and about the context apply to a second session with a call on its way. -/
example : Fits exSysApp exSys ∧ 0 < exSys.cfg.outgoing_depth ∧ (∀ l ∈ sysCall 0 5#8 0x85#8 [2], Used exSysApp l ∧ Listens exSysApp l) ∧
    ∃ s1 s2, Sessions exSysApp exSys ([] ++ [s1]) s1.reconnect ∧
    sys_run exSys (sysCall 0 5#8 0x85#8 [2]) s1.reconnect = some s2 ∧ s2.client.calls.length < 2 ^ 32 ∧ Open s2 ∧
    s2.client.calls.map result = [none] := by
  have h0 : ((sys_run exSys exFirst (Sys.new 0)).bind fun s => sys_run exSys (sysCall 0 5#8 0x85#8 [2]) s.reconnect).map
      (fun s => (s.client.calls.map result, s.client.stopped, s.client.handles)) = some ([none], false, true) := by decide +kernel
  obtain ⟨s1, s2, e1, hl1, _, e2, e3⟩ := exTwo h0
  simp only [Prod.mk.injEq] at e3
  have hl : s2.client.calls.length = 1 := by simpa using congrArg List.length e3.1
  exact ⟨exSys_fits, by decide, by decide, s1, s2, exFirst_session e1 hl1, e2, by omega, e3.2, e3.1⟩

/-- The application with the spawned handler made a blocking one. -/
def exCalmApp : App Nat WireTxErrorKind Nat Nat :=
  { exSysApp with eps := exSysApp.eps.map fun h => match h.flavor with
      | .spawn => { h with flavor := .blocking fun c _ v => (v, c) }
      | _ => h }

def exCalm : SysCfg Nat WireTxErrorKind Nat Nat := { exSys with disp := { exSysDisp with eps := exCalmApp.eps } }

theorem exCalmApp_ok : define_dispatch exCalmApp = .ok exCalm.disp := by
  have h : needed_sz exCalmApp.sizer = .ok 1 := by decide +kernel
  unfold define_dispatch
  rw [h]
  simp only [Exec.ok_bind, kind_of_sz, if_true, merge_types_eq]
  rfl

set_option synthInstance.maxSize 1000 in
/-- The theorem about applications without spawned endpoint handlers applies: the second client's call is served as if it were the
first. -/
example : define_dispatch exCalmApp = .ok exCalm.disp ∧ Declared exCalmApp exCalm.kkind ∧ KeysApart exCalmApp exCalm ∧ Clean exCalm ∧
    (∀ r ∈ exCalmApp.endpoint_list.endpoints, short (keyLen exCalm.kkind) r.resp ≠ short (keyLen exCalm.kkind) exCalmApp.std.error) ∧
    (∀ h ∈ exCalmApp.eps, h.flavor ≠ .spawn) ∧
    ∃ s1 s2 ls, Sessions exCalmApp exCalm [s1] s1.reconnect ∧ (∀ l ∈ ls, Used exCalmApp l) ∧
    sys_run exCalm ls s1.reconnect = some s2 ∧ s2.client.calls.length < 2 ^ 32 ∧
    s2.client.calls.map result = [some (false, ⟨⟨.Key1 ⟨0x85⟩, .Seq4 0⟩, [2]⟩, 0)] := by
  refine ⟨exCalmApp_ok, ⟨by decide, by decide, by decide, by decide, exSysApp_declared.sends⟩, exSysApp_apart, fun _ _ => rfl, by decide,
    ?_, ?_⟩
  · intro h hm e
    obtain ⟨g, hg, rfl⟩ := List.mem_map.mp hm
    split at e
    · cases e
    · rename_i hn
      exact hn e
  · have h1 : (sys_run exCalm exFirst (Sys.new 0)).map (fun s => s.client.calls.length) = some 1 := by decide +kernel
    have h2 : ((sys_run exCalm exFirst (Sys.new 0)).bind fun s => sys_run exCalm (sysCall 0 5#8 0x85#8 [2] ++ sysSend ++
        [.serve, .flush] ++ sysRecv [0x20, 0x85, 0, 0, 0, 0, 2] (some ⟨0, false⟩) ++ [.client (.call_ok 0)]) s.reconnect).map
        (fun s => s.client.calls.map result) = some [some (false, ⟨⟨.Key1 ⟨0x85⟩, .Seq4 0⟩, [2]⟩, 0)] := by decide +kernel
    obtain ⟨s1, e1, hl1⟩ := Option.map_eq_some_iff.mp h1
    rw [e1] at h2
    obtain ⟨s2, e2, e3⟩ := Option.map_eq_some_iff.mp h2
    have hl : s2.client.calls.length = 1 := by simpa using congrArg List.length e3
    refine ⟨s1, s2, _, .next [] _ s1 exFirst (.first 0) ?_ e1 (by omega), ?_, e2, by omega, e3⟩
    · intro l hl
      have : Used exSysApp l := (by decide : ∀ l ∈ exFirst, Used exSysApp l) l hl
      exact this
    · intro l hl
      have : Used exSysApp l := (by decide : ∀ l ∈ sysCall 0 5#8 0x85#8 [2] ++ sysSend ++
        [.serve, .flush] ++ sysRecv [0x20, 0x85, 0, 0, 0, 0, 2] (some ⟨0, false⟩) ++ [.client (.call_ok 0)], Used exSysApp l) l hl
      exact this

end PRpc.Props
