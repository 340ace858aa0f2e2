import Verif.Lemmas.Raw
import Verif.Props.QSys
import Verif.Props.Session
/-! Raw calls (`send_resp_raw`) of a client that is connected to a server: C100. -/

namespace PRpc.Props

open Spec

variable {V E SC Ctx : Type}

/-- C100 as stated: a call of a declared endpoint, typed or raw and with whatever sequence number, that returned a reply returned the
reply the handler of its endpoint gave to a request with this call's number and body.  (Under what C45 needs, and with an error key
that differs from the response keys.) -/
def c100_statement : Prop :=
  ∀ (V E SC Ctx : Type) (a : App V E SC Ctx) (S : SysCfg V E SC Ctx), define_dispatch a = .ok S.disp → Declared a S.kkind →
  KeysApart a S → Clean S →
  (∀ r ∈ a.endpoint_list.endpoints, short (keyLen S.kkind) r.resp ≠ short (keyLen S.kkind) a.std.error) →
  ∀ (ls : List (SLabel V)) (c0 : Ctx) (s : Sys V E SC Ctx), (∀ l ∈ ls, UsedRaw a l) → sys_run S ls (Sys.new c0) = some s →
  ∀ (c : Nat) (cl : Call) (f : RpcFrame) (i : Nat), s.client.calls[c]? = some cl → result cl = some (false, f, i) →
    ∃ o ∈ s.outs, ∃ j hdr req, Carries S.enc o f ∧ SentFor s c cl j hdr ∧ cl.rqst.header.key = .Key8 req ∧
      ReplyTo S.disp s j hdr cl.rqst.body req cl.resp_key o

/-- C100, what holds of every call: the reply it returned is the reply to a request of a call with its sequence number, given
under its response key. -/
theorem c100_reply_from (a : App V E SC Ctx) (S : SysCfg V E SC Ctx) (hD : define_dispatch a = .ok S.disp)
    (hdecl : Declared a S.kkind) (hapart : KeysApart a S) (hclean : Clean S)
    (hdist : ∀ r ∈ a.endpoint_list.endpoints, short (keyLen S.kkind) r.resp ≠ short (keyLen S.kkind) a.std.error)
    {es : List (Sys V E SC Ctx)} {s0 : Sys V E SC Ctx} (h0 : Sessions a S es s0)
    {ls : List (SLabel V)} {s : Sys V E SC Ctx} (hu : ∀ l ∈ ls, UsedRaw a l) (hrun : sys_run S ls s0 = some s)
    (hown : OwnTasks s0.tasks.length ls) {c : Nat} {cl : Call} {f : RpcFrame} {i : Nat}
    (hc : s.client.calls[c]? = some cl) (hres : result cl = some (false, f, i)) :
    ∃ o ∈ s.outs, ∃ c' cl' j hdr req, Carries S.enc o f ∧ SentFor s c' cl' j hdr ∧ cl'.rqst.header.key = .Key8 req ∧
      seqVal cl'.rqst.header.seq_no = seqVal cl.rqst.header.seq_no ∧
      ReplyTo S.disp s j hdr cl'.rqst.body req cl.resp_key o := by
  have inv := sys_run_invR hrun hu (sessions_start h0).inv.toSysInvR
  obtain ⟨o, ho, ⟨c', cl', j, hdr, req, h1, h2⟩ | ⟨_, k, j, t, h2, _⟩⟩ := reply_from a S hD hdecl hapart hdist inv hc hres
  · exact ⟨o, ho, c', cl', j, hdr, req, h1.whole (clean_wholeR hclean inv ho h1), h2⟩
  · exact (not_stale h0 hrun hown ho h2).elim

/-- C100 for a call that is the only one of the session with its sequence number, whatever numbers the others have: it gets the
reply to its own request.  Missing: calls that take the number of an earlier one. -/
theorem c100_own_reply_partial (a : App V E SC Ctx) (S : SysCfg V E SC Ctx) (hD : define_dispatch a = .ok S.disp)
    (hdecl : Declared a S.kkind) (hapart : KeysApart a S) (hclean : Clean S)
    (hdist : ∀ r ∈ a.endpoint_list.endpoints, short (keyLen S.kkind) r.resp ≠ short (keyLen S.kkind) a.std.error)
    {es : List (Sys V E SC Ctx)} {s0 : Sys V E SC Ctx} (h0 : Sessions a S es s0)
    {ls : List (SLabel V)} {s : Sys V E SC Ctx} (hu : ∀ l ∈ ls, UsedRaw a l) (hrun : sys_run S ls s0 = some s)
    (hown : OwnTasks s0.tasks.length ls) {c : Nat} {cl : Call} {f : RpcFrame} {i : Nat}
    (hc : s.client.calls[c]? = some cl) (honly : OnlyOne s.client c cl) (hres : result cl = some (false, f, i)) :
    ∃ o ∈ s.outs, ∃ j hdr req, Carries S.enc o f ∧ RequestOf s c cl j hdr ∧ cl.rqst.header.key = .Key8 req ∧
      ReplyTo S.disp s j hdr cl.rqst.body req cl.resp_key o := by
  have inv := sys_run_invR hrun hu (sessions_start h0).inv.toSysInvR
  obtain ⟨o, ho, ⟨j, hdr, req, h1, h2⟩ | ⟨_, k, j, t, h2, _⟩⟩ := reply_own a S hD hdecl hapart hdist inv honly hc hres
  · exact ⟨o, ho, j, hdr, req, h1.whole (clean_wholeR hclean inv ho h1), h2⟩
  · exact (not_stale h0 hrun hown ho h2).elim

/-- C100, errors: an error a call returned is one the server sent, in this session, for the request of a call or for a publication
with the call's sequence number; if no other call and no publication has this number, for its own request. -/
theorem c100_error_from (a : App V E SC Ctx) (S : SysCfg V E SC Ctx) (hD : define_dispatch a = .ok S.disp)
    (hdecl : Declared a S.kkind) (hclean : Clean S) (hcfg : S.cfg.err_key = a.std.error)
    (hdist : ∀ r ∈ a.endpoint_list.endpoints, short (keyLen S.kkind) r.resp ≠ short (keyLen S.kkind) a.std.error)
    (hdist' : ∀ t ∈ a.topic_out_list.topics, short (keyLen S.kkind) t.key ≠ short (keyLen S.kkind) a.std.error)
    {es : List (Sys V E SC Ctx)} {s0 : Sys V E SC Ctx} (h0 : Sessions a S es s0)
    {ls : List (SLabel V)} {s : Sys V E SC Ctx} (hu : ∀ l ∈ ls, UsedRaw a l) (hrun : sys_run S ls s0 = some s)
    {c : Nat} {cl : Call} {f : RpcFrame} {i : Nat}
    (hc : s.client.calls[c]? = some cl) (hres : result cl = some (true, f, i)) :
    ∃ o ∈ s.outs, ∃ j hdr e, Carries S.enc o f ∧ o.src = .req j ∧ o.frame.body = .err e ∧
      ((∃ c' cl', SentFor s c' cl' j hdr ∧ seqVal cl'.rqst.header.seq_no = seqVal cl.rqst.header.seq_no) ∨
        ∃ (p : Nat) (pb : Pub) (b body : Bytes), s.client.pubs[p]? = some pb ∧ s.client.tx[j]? = some b ∧ IsFrame b hdr body ∧
          hdr.seq_no = pb.orig.header.seq_no ∧ seqVal pb.orig.header.seq_no = seqVal cl.rqst.header.seq_no) ∧
      (OnlyOne s.client c cl → (∀ pb ∈ s.client.pubs, seqVal pb.orig.header.seq_no ≠ seqVal cl.rqst.header.seq_no) →
        RequestOf s c cl j hdr) := by
  have inv := sys_run_invR hrun hu (sessions_start h0).inv.toSysInvR
  obtain ⟨o, ho, j, hdr, e, h1, h2, h3, h4⟩ := error_from a S hD hdecl hcfg hdist hdist' inv hc hres
  refine ⟨o, ho, j, hdr, e, h1.whole (clean_wholeR hclean inv ho h1), h2, h3.body, ?_, ?_⟩
  · rcases h4 with ⟨c', cl', g1, g2, _⟩ | h4
    · exact .inl ⟨c', cl', g1, g2⟩
    · exact .inr h4
  · intro honly hpub
    rcases h4 with ⟨c', cl', hs, hseq, _⟩ | ⟨p, pb, _, _, hp, _, _, _, hseq⟩
    · have ec : c' = c := honly c' cl' hs.call hseq
      subst ec
      have ee := hc.symm.trans hs.call
      cases ee
      exact ⟨hc, hs.sent, hs.key, hs.seq, fun c2 cl2 g e2 => honly c2 cl2 g (by rw [e2, hs.seq])⟩
    · exact absurd hseq (hpub pb (List.mem_of_getElem? hp))

/-- C100, answers: if all calls of the session have different sequence numbers, an open client and its server left to themselves end,
after finitely many steps, in a state in which every call, typed or raw, was given up by its caller or has returned an answer. -/
theorem c100_answered (a : App V E SC Ctx) (S : SysCfg V E SC Ctx) (hD : define_dispatch a = .ok S.disp)
    (hdecl : Declared a S.kkind) (hfit : Fits a S) (hdepth : 0 < S.cfg.outgoing_depth)
    {es : List (Sys V E SC Ctx)} {s0 : Sys V E SC Ctx} (h0 : Sessions a S es s0) {ls : List (SLabel V)} {s : Sys V E SC Ctx}
    (hu : ∀ l ∈ ls, UsedRaw a l) (hl : ∀ l ∈ ls, Listens a l) (hrun : sys_run S ls s0 = some s)
    (hn : (numbers s.client).Nodup) (hopen : Open s) :
    (¬ ∃ (f : Nat → Sys V E SC Ctx) (g : Nat → SLabel V), f 0 = s ∧
      ∀ n, SysOwn (f n) (g n) ∧ sys_step S (f n) (g n) = some (f (n + 1))) ∧
    ∀ {own : List (SLabel V)} {t : Sys V E SC Ctx}, SysOwnRun S s own t →
      ∃ more u, SysOwnRun S t more u ∧ SysStuck S u ∧ u.client.calls.length = s.client.calls.length ∧
        ∀ cl ∈ u.client.calls, cl.phase = .dropped ∨ ∃ err f i, result cl = some (err, f, i) := by
  have i0 := (sessions_start h0).inv.toSysInvR
  have inv := sys_run_invR hrun hu i0
  have lv := sys_run_liveR hD hdecl hfit hrun hu hl i0 (sessions_live h0) hn
  exact ⟨own_finiteR hD hdecl hfit inv lv hn, fun ho => (own_answeredR hD hdecl hfit hdepth inv lv hn hopen ho).2⟩

/-- C100, refusal: a call that registers while another one with its sequence number waits and has not been given an error ends with
`BadResponse` and sends nothing, whatever endpoints the two are of and however their numbers are written; the other one goes on
waiting. -/
theorem c100_refused {cfg : Cfg} {s s' : Client} (hr : Reachable cfg s) {c d : Nat} {cl other : Call} {k : VarKeyKind}
    (hc : s.calls[c]? = some cl) (hp : cl.phase = .half k) (hne : d ≠ c) (hd : s.calls[d]? = some other)
    (hw : (∃ m, other.phase = .registered m) ∨ ∃ m, other.phase = .waiting m)
    (hno : ∀ w ∈ s.woken, w.id ≠ ⟨d, true⟩)
    (hseq : seqVal other.rqst.header.seq_no = seqVal cl.rqst.header.seq_no) (h : step cfg s (.call_reg_err c) = some s') :
    s'.calls[c]? = some { cl with phase := .done .BadResponse } ∧ s'.calls[d]? = some other ∧ s'.enq = s.enq ∧
      ∀ x, x ∈ s.map → x.1.call = d → x ∈ s'.map := by
  have inv := reachable_coreInv hr
  have hwait : ∃ m, other.phase.hasWait true = some m := by
    rcases hw with ⟨m, e⟩ | ⟨m, e⟩ <;> exact ⟨m, by rw [e]; rfl⟩
  obtain ⟨m, hm⟩ := hwait
  have hmap : ∃ hd', ((⟨d, true⟩ : WaitId), hd') ∈ s.map := by
    rcases inv.here d other true m hd hm with h | ⟨w, h1, h2⟩
    · exact h
    · exact absurd h2 (hno w h1)
  obtain ⟨hd', hx⟩ := hmap
  obtain ⟨cl2, k2, g1, _, g3, _⟩ := inv.mapOk _ _ hx
  have g1 : s.calls[d]? = some cl2 := g1
  rw [hd] at g1
  cases g1
  have hany : (s.map.any fun w => w.2.eq (cl.err_hdr cfg k)) = true :=
    List.any_eq_true.mpr ⟨_, hx, by rw [g3]; exact err_hdrs_eq cfg other cl k2 k hseq⟩
  simp only [step, hc, hp, call_reg_err, map_enqueue, hany, if_true, Option.some.injEq] at h
  subst h
  refine ⟨?_, ?_, rfl, ?_⟩
  · simp only [Client.set_phase, Client.drop_waits]
    rw [set_get hc, if_pos rfl]
  · simp only [Client.set_phase, Client.drop_waits]
    rw [set_get hc, if_neg hne, hd]
  · intro x hx e
    simp only [Client.set_phase, Client.drop_waits]
    exact List.mem_filter.mpr ⟨hx, by rw [e]; simpa using hne⟩

/-- C100, reports: a host that knows of the server only a report that `get_schema_report` returned, and calls the endpoints it lists by
the keys it lists, gets for every call with a number of its own the reply to its own request: in the session of the report or any
other with this server. -/
theorem c100_report_calls (a : App V E SC Ctx) (Q : QSysCfg V E SC Ctx) (hD : define_dispatch a = .ok Q.S.disp)
    (hdecl : Declared a Q.S.kkind) (hapart : KeysApart a Q.S) (hclean : Clean Q.S)
    (hdist : ∀ r ∈ a.endpoint_list.endpoints, short (keyLen Q.S.kkind) r.resp ≠ short (keyLen Q.S.kkind) a.std.error)
    (hschemas : SchemasOwn a Q.S.kkind) (hreads : HostReads Q) (hcount : Countable Q.S.disp.device_map)
    {es : List (Sys V E SC Ctx)} {s0 : Sys V E SC Ctx} (hs : Sessions a Q.S es s0)
    {qs : List (QSLabel V)} {y : QSys V E SC Ctx} (hq : ∀ l ∈ qs, ReportUsed a l) (hqrun : qs_run Q qs (QSys.start s0) = some y)
    (hlen : y.q.client.calls.length < 2 ^ 32) {W : Type} (decode_err : Bytes → Option W) (hash : Bytes → Nty → Key)
    (iter : List Nty → List Nty) (hi : Enumerates iter) (prims : List Nty) {r : SchemaReport}
    (hrep : y.q.result Q.qc decode_err hash iter prims = some (.ok (.ok r)))
    {es' : List (Sys V E SC Ctx)} {s1 : Sys V E SC Ctx} (h1 : Sessions a Q.S es' s1)
    {ls : List (SLabel V)} {s : Sys V E SC Ctx} (hu : ∀ l ∈ ls, ByReport r l) (hrun : sys_run Q.S ls s1 = some s)
    (hown : OwnTasks s1.tasks.length ls) {c : Nat} {cl : Call} {f : RpcFrame} {i : Nat}
    (hc : s.client.calls[c]? = some cl) (honly : OnlyOne s.client c cl) (hres : result cl = some (false, f, i)) :
    ∃ o ∈ s.outs, ∃ j hdr req, Carries Q.S.enc o f ∧ RequestOf s c cl j hdr ∧ cl.rqst.header.key = .Key8 req ∧
      ReplyTo Q.S.disp s j hdr cl.rqst.body req cl.resp_key o := by
  obtain ⟨e1, e2, e3, _⟩ := c91_report_exact a Q hD hdecl hapart hdist hschemas hreads hcount hs hq hqrun hlen decode_err hash iter hi
    prims hrep
  refine c100_own_reply_partial a Q.S hD hdecl hapart hclean hdist h1 ?_ hrun hown hc honly hres
  intro l hl
  have := hu l hl
  cases l with
  | client l =>
    cases l with
    | call_begin req resp _ =>
      obtain ⟨e, he, k1, k2⟩ := this
      exact ⟨⟨e.path, e.req_key, e.resp_key⟩, by rw [← e1]; exact List.mem_map.mpr ⟨e, he, rfl⟩, k1, k2⟩
    | call_begin_raw f resp =>
      obtain ⟨e, he, k1, k2⟩ := this
      exact ⟨⟨e.path, e.req_key, e.resp_key⟩, by rw [← e1]; exact List.mem_map.mpr ⟨e, he, rfl⟩, k1, k2⟩
    | pub_begin f =>
      obtain ⟨t, ht, k1⟩ := this
      exact ⟨⟨t.path, t.key⟩, by rw [← e2]; exact List.mem_map.mpr ⟨t, ht, rfl⟩, k1⟩
    | _ => trivial
  | app_publish key _ _ =>
    obtain ⟨t, ht, k1⟩ := this
    exact ⟨⟨t.path, t.key⟩, by rw [← e3]; exact List.mem_map.mpr ⟨t, ht, rfl⟩, k1⟩
  | _ => trivial


/-! ### Examples -/

/-- Starting raw call `c` with sequence number `n`. -/
def sysRaw (c : Nat) (n : VarSeq) (req resp : Byte) (body : Bytes) : List (SLabel Nat) :=
  [.client (.call_begin_raw ⟨⟨.Key8 (exKey req), n⟩, body⟩ (exKey resp)), .client (.call_kind c), .client (.call_reg_ok c),
    .client (.call_reg_err c), .client (.call_send c)]

instance decUsedRaw (l : SLabel Nat) : Decidable (UsedRaw exSysApp l) := by
  cases l with
  | client l => cases l <;> simp only [UsedRaw] <;> infer_instance
  | _ => simp only [UsedRaw] <;> infer_instance

/-- Two raw calls, with numbers of one and two bytes, and a typed one, all on the way at the same time. -/
def exRawAsk : List (SLabel Nat) :=
  sysRaw 0 (.Seq1 9) 5#8 0x85#8 [1] ++ sysRaw 1 (.Seq2 8) 3#8 0x83#8 [7] ++ sysCall 2 3#8 0x83#8 [7] ++ sysSend ++ sysSend ++ sysSend

def exRawRun : List (SLabel Nat) :=
  exRawAsk ++ [.serve, .serve, .flush, .serve, .flush, .task_reply 0 11] ++
  sysRecv [0x10, 0x83, 8, 0, 107] (some ⟨1, false⟩) ++ sysRecv [0x20, 0x83, 0, 0, 0, 0, 108] (some ⟨2, false⟩) ++
  sysRecv [0, 0x85, 9, 11] (some ⟨0, false⟩) ++ [.client (.call_ok 0), .client (.call_ok 1), .client (.call_ok 2)]

theorem exRawRun_result : (sys_run exSys exRawRun (Sys.new 0)).map (fun s => (s.client.calls.map result, numbers s.client)) =
    some ([some (false, ⟨⟨.Key1 ⟨0x85⟩, .Seq1 9⟩, [11]⟩, 2), some (false, ⟨⟨.Key1 ⟨0x83⟩, .Seq2 8⟩, [107]⟩, 0),
      some (false, ⟨⟨.Key1 ⟨0x83⟩, .Seq4 0⟩, [108]⟩, 1)], [9, 8, 0]) := by decide +kernel

/-- The theorems on replies apply to the run. -/
example : define_dispatch exSysApp = .ok exSys.disp ∧ Declared exSysApp exSys.kkind ∧ KeysApart exSysApp exSys ∧ Clean exSys ∧
    (∀ r ∈ exSysApp.endpoint_list.endpoints, short (keyLen exSys.kkind) r.resp ≠ short (keyLen exSys.kkind) exSysApp.std.error) ∧
    Sessions exSysApp exSys [] (Sys.new 0) ∧ (∀ l ∈ exRawRun, UsedRaw exSysApp l) ∧
    OwnTasks (Sys.new 0 : Sys Nat WireTxErrorKind Nat Nat).tasks.length exRawRun ∧
    ∃ s, sys_run exSys exRawRun (Sys.new 0) = some s ∧ ∃ cl, s.client.calls[1]? = some cl ∧ OnlyOne s.client 1 cl ∧
      result cl = some (false, ⟨⟨.Key1 ⟨0x83⟩, .Seq2 8⟩, [107]⟩, 0) := by
  refine ⟨exSysApp_ok, exSysApp_declared, exSysApp_apart, fun _ _ => rfl, by decide, .first 0, by decide, fun _ _ _ => Nat.zero_le _, ?_⟩
  obtain ⟨s, e1, e2⟩ := Option.map_eq_some_iff.mp exRawRun_result
  simp only [Prod.mk.injEq] at e2
  have : (s.client.calls.map result)[1]? = some (some (false, ⟨⟨.Key1 ⟨0x83⟩, .Seq2 8⟩, [107]⟩, 0)) := by rw [e2.1]; rfl
  rw [List.getElem?_map] at this
  obtain ⟨cl, e3, e4⟩ := Option.map_eq_some_iff.mp this
  exact ⟨s, e1, cl, e3, onlyOne_of_nodup (by rw [e2.2]; decide) e3, e4⟩

/-- A raw call with a body its handler cannot decode. -/
def exRawErr : List (SLabel Nat) :=
  sysRaw 0 (.Seq1 9) 3#8 0x83#8 [1, 2] ++ sysSend ++ [.serve, .flush] ++ sysRecv [0, 0xE0, 9, 0xEE] (some ⟨0, true⟩) ++
  [.client (.call_err 0)]

/-- The theorem on errors applies to it, its last part too. -/
example : exSys.cfg.err_key = exSysApp.std.error ∧
    (∀ t ∈ exSysApp.topic_out_list.topics, short (keyLen exSys.kkind) t.key ≠ short (keyLen exSys.kkind) exSysApp.std.error) ∧
    (∀ l ∈ exRawErr, UsedRaw exSysApp l) ∧ ∃ s, sys_run exSys exRawErr (Sys.new 0) = some s ∧
      ∃ cl, s.client.calls[0]? = some cl ∧ result cl = some (true, ⟨⟨.Key1 ⟨0xE0⟩, .Seq1 9⟩, [0xEE]⟩, 0) ∧ OnlyOne s.client 0 cl ∧
        ∀ pb ∈ s.client.pubs, seqVal pb.orig.header.seq_no ≠ seqVal cl.rqst.header.seq_no := by
  refine ⟨rfl, by decide, by decide, ?_⟩
  have h : (sys_run exSys exRawErr (Sys.new 0)).map (fun s => (s.client.calls.map result, numbers s.client, s.client.pubs.length)) =
      some ([some (true, ⟨⟨.Key1 ⟨0xE0⟩, .Seq1 9⟩, [0xEE]⟩, 0)], [9], 0) := by decide +kernel
  obtain ⟨s, e1, e2⟩ := Option.map_eq_some_iff.mp h
  simp only [Prod.mk.injEq] at e2
  have : (s.client.calls.map result)[0]? = some (some (true, ⟨⟨.Key1 ⟨0xE0⟩, .Seq1 9⟩, [0xEE]⟩, 0)) := by rw [e2.1]; rfl
  rw [List.getElem?_map] at this
  obtain ⟨cl, e3, e4⟩ := Option.map_eq_some_iff.mp this
  refine ⟨s, e1, cl, e3, e4, onlyOne_of_nodup (by rw [e2.2.1]; decide) e3, fun pb hp => ?_⟩
  rw [List.length_eq_zero_iff.mp e2.2.2] at hp
  cases hp

set_option synthInstance.maxSize 1000 in
/-- The theorem on answers applies to the three calls when none is answered yet. -/
example : define_dispatch exSysApp = .ok exSys.disp ∧ Declared exSysApp exSys.kkind ∧ Fits exSysApp exSys ∧ 0 < exSys.cfg.outgoing_depth ∧
    (∀ l ∈ exRawAsk, UsedRaw exSysApp l) ∧ (∀ l ∈ exRawAsk, Listens exSysApp l) ∧
    ∃ s, sys_run exSys exRawAsk (Sys.new 0) = some s ∧ s.client.calls.map result = [none, none, none] ∧
      (numbers s.client).Nodup ∧ Open s := by
  refine ⟨exSysApp_ok, exSysApp_declared, exSys_fits, by decide, by decide, by decide, ?_⟩
  have h : (sys_run exSys exRawAsk (Sys.new 0)).map (fun s => (s.client.calls.map result, numbers s.client, s.client.stopped,
      s.client.handles)) = some ([none, none, none], [9, 8, 0], false, true) := by decide +kernel
  obtain ⟨s, e1, e2⟩ := Option.map_eq_some_iff.mp h
  simp only [Prod.mk.injEq] at e2
  exact ⟨s, e1, e2.1, by rw [e2.2.1]; decide, e2.2.2⟩

/-- The same number for two endpoints, written in one byte and in two: the second call is refused. -/
example : ∃ s s' cl other k m, Reachable exCfg s ∧ s.calls[1]? = some cl ∧ cl.phase = .half k ∧ s.calls[0]? = some other ∧
    other.phase = .waiting m ∧ (∀ w ∈ s.woken, w.id ≠ ⟨0, true⟩) ∧
    seqVal other.rqst.header.seq_no = seqVal cl.rqst.header.seq_no ∧ step exCfg s (.call_reg_err 1) = some s' := by
  have h : (run exCfg [.call_begin_raw ⟨⟨.Key8 (cKey 1), .Seq1 5⟩, []⟩ (cKey 2), .call_kind 0, .call_reg_ok 0, .call_reg_err 0, .call_send 0,
      .call_begin_raw ⟨⟨.Key8 (cKey 3), .Seq2 5⟩, []⟩ (cKey 4), .call_kind 1, .call_reg_ok 1] Client.new).map
      (fun s => (s.calls.map Call.phase, numbers s, s.woken.length, (step exCfg s (.call_reg_err 1)).isSome)) =
      some ([.waiting .Key8, .half .Key8], [5, 5], 0, true) := by decide +kernel
  obtain ⟨s, e1, e2⟩ := Option.map_eq_some_iff.mp h
  simp only [Prod.mk.injEq] at e2
  obtain ⟨e2, e3, e4, e5⟩ := e2
  obtain ⟨s', e5⟩ := Option.isSome_iff_exists.mp e5
  have p0 : (s.calls.map Call.phase)[0]? = some (.waiting .Key8) := by rw [e2]; rfl
  have p1 : (s.calls.map Call.phase)[1]? = some (.half .Key8) := by rw [e2]; rfl
  rw [List.getElem?_map] at p0 p1
  obtain ⟨other, a1, a2⟩ := Option.map_eq_some_iff.mp p0
  obtain ⟨cl, b1, b2⟩ := Option.map_eq_some_iff.mp p1
  refine ⟨s, s', cl, other, _, _, ⟨_, e1⟩, b1, b2, a1, a2, fun w hw => ?_, ?_, e5⟩
  · rw [List.length_eq_zero_iff.mp e4] at hw; cases hw
  · have n0 := numbers_get a1
    have n1 := numbers_get b1
    rw [e3] at n0 n1
    simp at n0 n1
    omega

/-- A raw call of an endpoint of the report. -/
def exByReport : List (SLabel Nat) :=
  sysRaw 0 (.Seq1 9) 5#8 0x85#8 [1] ++ sysSend ++ [.serve, .task_reply 0 11] ++ sysRecv [0, 0x85, 9, 11] (some ⟨0, false⟩) ++
  [.client (.call_ok 0)]

/-- The labels of this run other than the first need nothing of a report. -/
def isPlain : SLabel Nat → Bool
  | .client (.call_begin ..) => false
  | .client (.call_begin_raw ..) => false
  | .client (.pub_begin _) => false
  | .app_publish .. => false
  | _ => true

theorem byReport_plain {r : SchemaReport} {l : SLabel Nat} (h : isPlain l = true) : ByReport r l := by
  cases l with
  | client l => cases l <;> first | trivial | cases h
  | app_publish => cases h
  | _ => trivial

/-- The theorem on reports applies: the report is returned, and the call is made by it in another session. -/
example : Clean exRep.S ∧ ∃ y r, qs_run exRep exRepRun (QSys.start (Sys.new 0)) = some y ∧ y.q.client.calls.length < 2 ^ 32 ∧
    y.q.result (W := Unit) exRep.qc (fun _ => none) exRepHash id exRepPrims = some (.ok (.ok r)) ∧ (∀ l ∈ exByReport, ByReport r l) ∧
    ∃ s cl, sys_run exRep.S exByReport (Sys.new 0) = some s ∧ s.client.calls[0]? = some cl ∧ OnlyOne s.client 0 cl ∧
      result cl = some (false, ⟨⟨.Key1 ⟨0x85⟩, .Seq1 9⟩, [11]⟩, 0) := by
  refine ⟨fun _ _ => rfl, ?_⟩
  have hdist : ∀ r ∈ exRepApp.endpoint_list.endpoints,
      short (keyLen exRep.S.kkind) r.resp ≠ short (keyLen exRep.S.kkind) exRepApp.std.error := by decide
  have hcount : Countable exRep.S.disp.device_map := ⟨by decide, by decide, by decide⟩
  obtain ⟨u, k, p, d⟩ := exRepRun_ok
  obtain ⟨y, e1, e2⟩ := Option.map_eq_some_iff.mp exRepRun_end
  simp only [exRepEnd, Prod.mk.injEq] at e2
  obtain ⟨a, b, c, w⟩ := e2
  cases hc : y.q.client.calls with
  | nil => rw [hc] at c; cases c
  | cons cl cs =>
    rw [hc] at c
    simp only [List.map_cons, List.cons.injEq, List.map_eq_nil_iff] at c
    have hl : y.q.client.calls.length < 2 ^ 32 := by rw [hc, c.2]; exact Nat.le_of_ble_eq_true rfl
    have hw : SchemasWhole exRep.S y.s := fun o ho _ => by
      have : o.cut ∈ (y.s.outs ++ y.s.pending).map Out.cut := List.mem_map_of_mem ho
      rw [w] at this
      exact (List.mem_replicate.mp this).2
    obtain ⟨r, hr, _⟩ := c91_full_report exRepApp exRep exRepApp_ok exRepApp_declared exRepApp_apart hdist exRepApp_own exRep_reads hcount
      (.first 0) u e1 hl hw k p d (fun _ => (none : Option Unit)) exRepHash id (fun _ _ => Iff.rfl) exRepPrims exRep_keys.1 exRep_keys.2
      a b (by rw [hc]; rfl) c.1
    obtain ⟨m1, _⟩ := c91_report_exact exRepApp exRep exRepApp_ok exRepApp_declared exRepApp_apart hdist exRepApp_own exRep_reads hcount
      (.first 0) u e1 hl _ _ _ (fun _ _ => Iff.rfl) _ hr
    refine ⟨y, r, e1, hl, hr, ?_, ?_⟩
    · intro l hl
      have hl : l = .client (.call_begin_raw ⟨⟨.Key8 (exKey 5#8), .Seq1 9⟩, [1]⟩ (exKey 0x85#8)) ∨ l ∈ exByReport.drop 1 := by
        simpa [exByReport, sysRaw] using hl
      rcases hl with rfl | hl
      · have hm : (⟨[], exKey 5#8, exKey 0x85#8⟩ : EpRow) ∈ r.endpoints.map (fun e => (⟨e.path, e.req_key, e.resp_key⟩ : EpRow)) := by
          rw [m1]; decide
        obtain ⟨e, he, hrow⟩ := List.mem_map.mp hm
        simp only [EpRow.mk.injEq] at hrow
        exact ⟨e, he, by rw [hrow.2.1], hrow.2.2⟩
      · exact byReport_plain ((by decide : ∀ l ∈ exByReport.drop 1, isPlain l = true) l hl)
    · have h : (sys_run exRep.S exByReport (Sys.new 0)).map (fun s => (s.client.calls.map result, numbers s.client)) =
          some ([some (false, ⟨⟨.Key1 ⟨0x85⟩, .Seq1 9⟩, [11]⟩, 0)], [9]) := by decide +kernel
      obtain ⟨s, e3, e4⟩ := Option.map_eq_some_iff.mp h
      simp only [Prod.mk.injEq] at e4
      have : (s.client.calls.map result)[0]? = some (some (false, ⟨⟨.Key1 ⟨0x85⟩, .Seq1 9⟩, [11]⟩, 0)) := by rw [e4.1]; rfl
      rw [List.getElem?_map] at this
      obtain ⟨cl, e5, e6⟩ := Option.map_eq_some_iff.mp this
      exact ⟨s, cl, e3, e5, onlyOne_of_nodup (by rw [e4.2]; decide) e5, e6⟩

/-! ### The counterexample -/

/-- A typed call is sent and given up; a raw call takes its number. -/
def exReuse : List (SLabel Nat) :=
  sysCall 0 3#8 0x83#8 [7] ++ sysSend ++ [.client (.call_drop 0)] ++ sysRaw 1 (.Seq4 0) 3#8 0x83#8 [9] ++ sysSend ++
  [.serve, .flush] ++ sysRecv [0x20, 0x83, 0, 0, 0, 0, 7] (some ⟨1, false⟩) ++ [.client (.call_ok 1)]

/-- The outgoing message is one sent while request 0 was worked on. -/
def fromFirst (o : Out Nat) : Bool :=
  match o.src with
  | .req 0 => true
  | _ => false

set_option synthInstance.maxSize 1000 in
/-- C100 is false: the raw call returns the reply to the request that was given up, of which the body is another. -/
theorem c100_replies_false : ¬ c100_statement := by
  intro h
  have h0 : (sys_run exSys exReuse (Sys.new 0)).map (fun s => (s.client.calls.map (fun cl => (result cl, cl.rqst.body)),
      s.outs.map fromFirst, s.client.tx[0]?)) =
      some ([(none, [7]), (some (false, ⟨⟨.Key1 ⟨0x83⟩, .Seq4 0⟩, [7]⟩, 0), [9])], [true],
        some [0xE0, 3, 0, 0, 0, 0, 0, 0, 0, 0, 0, 0, 0, 7]) := by decide +kernel
  obtain ⟨s, e1, e2⟩ := Option.map_eq_some_iff.mp h0
  simp only [Prod.mk.injEq] at e2
  obtain ⟨e2, e3, e4⟩ := e2
  have hr : (s.client.calls.map (fun cl => (result cl, cl.rqst.body)))[1]? =
      some (some (false, ⟨⟨.Key1 ⟨0x83⟩, .Seq4 0⟩, [7]⟩, 0), [9]) := by rw [e2]; rfl
  rw [List.getElem?_map] at hr
  obtain ⟨cl, hc, hres⟩ := Option.map_eq_some_iff.mp hr
  simp only [Prod.mk.injEq] at hres
  obtain ⟨o, ho, j, hdr, req, _, hs, _, hrep⟩ := h _ _ _ _ exSysApp exSys exSysApp_ok exSysApp_declared exSysApp_apart (fun _ _ => rfl)
    (by decide) exReuse 0 s (by decide) e1 1 cl _ _ hc hres.1
  have hf : fromFirst o = true := by
    have : fromFirst o ∈ s.outs.map fromFirst := List.mem_map_of_mem ho
    rw [e3] at this
    exact List.mem_singleton.mp this
  have hj : ∀ n, o.src = .req n → n = 0 := by
    intro n e
    simp only [fromFirst, e] at hf
    split at hf
    · rename_i e'; cases e'; rfl
    · cases hf
  have ht : ∀ i, o.src ≠ .task i := by
    intro i e
    simp only [fromFirst, e] at hf
    cases hf
  have j0 : j = 0 := by
    cases hrep with
    | called => exact hj _ rfl
    | spawned => exact absurd rfl (ht _)
    | ping => exact hj _ rfl
    | schemas => exact hj _ rfl
  subst j0
  obtain ⟨b, hb, hfr⟩ := hs.sent
  rw [e4] at hb
  cases hb
  rw [hres.2] at hfr
  have := (isFrame_iff ..).mp hfr
  rw [show VarHeader.take_from_slice [0xE0, 3, 0, 0, 0, 0, 0, 0, 0, 0, 0, 0, 0, 7] = .ok (some (⟨.Key8 (exKey 3#8), .Seq4 0⟩, [7])) from by decide] at this
  simp only [Exec.ok.injEq, Option.some.injEq, Prod.mk.injEq] at this
  exact absurd this.2 (by decide)

/-- What `c100_reply_from` says of it: the reply is that to the call given up. -/
example : (∀ l ∈ exReuse, UsedRaw exSysApp l) ∧ OwnTasks (Sys.new 0 : Sys Nat WireTxErrorKind Nat Nat).tasks.length exReuse ∧
    (sys_run exSys exReuse (Sys.new 0)).isSome = true := ⟨by decide, fun _ _ _ => Nat.zero_le _, by decide +kernel⟩

end PRpc.Props
