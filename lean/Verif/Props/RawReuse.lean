import Verif.Lemmas.RawReuse
import Verif.Props.Raw
/-! Sequence numbers used more than once in a session: the rest of C100, and C45 beyond 2^32 calls. -/

namespace PRpc.Props

open Spec

variable {V E SC Ctx : Type}

/-- C100 for numbers used again: if no call with this number was given up or closed and no publication has it, a call that returned
a reply returned the reply to its own request — the message it handed to the queue itself —, however many calls had its number
before.  Spawned handlers are taken to reply at most once.  Missing: numbers of calls given up, for which the property is false
(`c100_replies_false`). -/
theorem c100_kept_reply_partial (a : App V E SC Ctx) (S : SysCfg V E SC Ctx) (hD : define_dispatch a = .ok S.disp)
    (hdecl : Declared a S.kkind) (hapart : KeysApart a S) (hclean : Clean S) (hcfg : S.cfg.err_key = a.std.error)
    (hdist : ∀ r ∈ a.endpoint_list.endpoints, short (keyLen S.kkind) r.resp ≠ short (keyLen S.kkind) a.std.error)
    (hdist' : ∀ t ∈ a.topic_out_list.topics, short (keyLen S.kkind) t.key ≠ short (keyLen S.kkind) a.std.error)
    (hhand : ∀ h ∈ a.eps, ∃ r ∈ a.endpoint_list.endpoints, r.req = h.req ∧ r.resp = h.resp)
    {es : List (Sys V E SC Ctx)} {s0 : Sys V E SC Ctx} (h0 : Sessions a S es s0)
    {ls : List (SLabel V)} {s : Sys V E SC Ctx} (hu : ∀ l ∈ ls, UsedRaw a l) (hrun : sys_run S ls s0 = some s)
    (hown : OwnTasks s0.tasks.length ls) (honce : (repliers ls).Nodup) {c : Nat} {cl : Call} {f : RpcFrame} {i : Nat}
    (hc : s.client.calls[c]? = some cl) (hkept : NumberKept s.client (seqVal cl.rqst.header.seq_no))
    (hres : result cl = some (false, f, i)) :
    ∃ o ∈ s.outs, ∃ j hdr req, Carries S.enc o f ∧ SentAt S s0 ls c j ∧ SentFor s c cl j hdr ∧ cl.rqst.header.key = .Key8 req ∧
      ReplyTo S.disp s j hdr cl.rqst.body req cl.resp_key o := by
  obtain ⟨o, ho, j, hdr, h1, h2, h3, req, h4, h5⟩ :=
    own_answer ⟨dispatches hD, hdecl, hapart, hclean, hcfg, hdist, hdist', hhand⟩ h0 hu hrun hown honce hc hres hkept
  exact ⟨o, ho, j, hdr, req, h1, h3, h2, h4, h5⟩

/-- The same for errors: the error a call returned was sent while the server worked on this call's own request. -/
theorem c100_kept_error (a : App V E SC Ctx) (S : SysCfg V E SC Ctx) (hD : define_dispatch a = .ok S.disp)
    (hdecl : Declared a S.kkind) (hapart : KeysApart a S) (hclean : Clean S) (hcfg : S.cfg.err_key = a.std.error)
    (hdist : ∀ r ∈ a.endpoint_list.endpoints, short (keyLen S.kkind) r.resp ≠ short (keyLen S.kkind) a.std.error)
    (hdist' : ∀ t ∈ a.topic_out_list.topics, short (keyLen S.kkind) t.key ≠ short (keyLen S.kkind) a.std.error)
    (hhand : ∀ h ∈ a.eps, ∃ r ∈ a.endpoint_list.endpoints, r.req = h.req ∧ r.resp = h.resp)
    {es : List (Sys V E SC Ctx)} {s0 : Sys V E SC Ctx} (h0 : Sessions a S es s0)
    {ls : List (SLabel V)} {s : Sys V E SC Ctx} (hu : ∀ l ∈ ls, UsedRaw a l) (hrun : sys_run S ls s0 = some s)
    (hown : OwnTasks s0.tasks.length ls) (honce : (repliers ls).Nodup) {c : Nat} {cl : Call} {f : RpcFrame} {i : Nat}
    (hc : s.client.calls[c]? = some cl) (hkept : NumberKept s.client (seqVal cl.rqst.header.seq_no))
    (hres : result cl = some (true, f, i)) :
    ∃ o ∈ s.outs, ∃ j hdr e, Carries S.enc o f ∧ SentAt S s0 ls c j ∧ SentFor s c cl j hdr ∧ o.src = .req j ∧ o.frame.body = .err e := by
  obtain ⟨o, ho, j, hdr, h1, h2, h3, e, h4, h5⟩ :=
    own_answer ⟨dispatches hD, hdecl, hapart, hclean, hcfg, hdist, hdist', hhand⟩ h0 hu hrun hown honce hc hres hkept
  exact ⟨o, ho, j, hdr, e, h1, h3, h2, h4, h5⟩

/-- C45 without a limit on the number of calls: typed calls, the counter of whose numbers has wrapped around any number of times,
get the replies to their own requests if no call with their number was given up or closed, no publication has it, and spawned
handlers reply at most once. -/
theorem c45_wrapped (a : App V E SC Ctx) (S : SysCfg V E SC Ctx) (hD : define_dispatch a = .ok S.disp)
    (hdecl : Declared a S.kkind) (hapart : KeysApart a S) (hclean : Clean S) (hcfg : S.cfg.err_key = a.std.error)
    (hdist : ∀ r ∈ a.endpoint_list.endpoints, short (keyLen S.kkind) r.resp ≠ short (keyLen S.kkind) a.std.error)
    (hdist' : ∀ t ∈ a.topic_out_list.topics, short (keyLen S.kkind) t.key ≠ short (keyLen S.kkind) a.std.error)
    (hhand : ∀ h ∈ a.eps, ∃ r ∈ a.endpoint_list.endpoints, r.req = h.req ∧ r.resp = h.resp)
    {ls : List (SLabel V)} {c0 : Ctx} {s : Sys V E SC Ctx} (hu : ∀ l ∈ ls, Used a l) (hrun : sys_run S ls (Sys.new c0) = some s)
    (honce : (repliers ls).Nodup) {c : Nat} {cl : Call} {f : RpcFrame} {i : Nat}
    (hc : s.client.calls[c]? = some cl) (hkept : NumberKept s.client (seqVal cl.rqst.header.seq_no))
    (hres : result cl = some (false, f, i)) :
    ∃ o ∈ s.outs, ∃ j hdr req, Carries S.enc o f ∧ SentAt S (Sys.new c0) ls c j ∧ SentFor s c cl j hdr ∧ cl.rqst.header.key = .Key8 req ∧
      ReplyTo S.disp s j hdr cl.rqst.body req cl.resp_key o :=
  c100_kept_reply_partial a S hD hdecl hapart hclean hcfg hdist hdist' hhand (.first c0) (fun l hl => used_raw (hu l hl)) hrun
    (fun _ _ _ => Nat.zero_le _) honce hc hkept hres

/-! ### Instances -/

/-- Three calls, one after the other, all with number 0 (the third one's in one byte): a blocking endpoint twice, then a spawned one. -/
def exAgain : List (SLabel Nat) :=
  sysCall 0 3#8 0x83#8 [7] ++ sysSend ++ [.serve, .flush] ++ sysRecv [0x20, 0x83, 0, 0, 0, 0, 7] (some ⟨0, false⟩) ++ [.client (.call_ok 0)] ++
  sysRaw 1 (.Seq4 0) 3#8 0x83#8 [9] ++ sysSend ++ [.serve, .flush] ++ sysRecv [0x20, 0x83, 0, 0, 0, 0, 10] (some ⟨1, false⟩) ++
  [.client (.call_ok 1)] ++
  sysRaw 2 (.Seq1 0) 5#8 0x85#8 [1] ++ sysSend ++ [.serve, .task_reply 0 11] ++ sysRecv [0, 0x85, 0, 11] (some ⟨2, false⟩) ++
  [.client (.call_ok 2)]

/-- No call is given up or closed and nothing is published. -/
def allKept (s : Client) : Bool :=
  s.pubs.isEmpty && s.calls.all fun cl => match cl.phase with
    | .dropped => false
    | .done .Closed => false
    | _ => true

theorem kept_of {s : Client} (h : allKept s = true) (n : Nat) : NumberKept s n := by
  simp only [allKept, Bool.and_eq_true, List.isEmpty_iff] at h
  refine ⟨fun cl hcl _ => ?_, fun pb hpb => by rw [h.1] at hpb; cases hpb⟩
  have := List.all_eq_true.mp h.2 cl hcl
  constructor <;> (intro e; rw [e] at this; cases this)

theorem exAgain_result : (sys_run exSys exAgain (Sys.new 0)).map (fun s => (s.client.calls.map result, numbers s.client, allKept s.client)) =
    some ([some (false, ⟨⟨.Key1 ⟨0x83⟩, .Seq4 0⟩, [7]⟩, 0), some (false, ⟨⟨.Key1 ⟨0x83⟩, .Seq4 0⟩, [10]⟩, 1),
      some (false, ⟨⟨.Key1 ⟨0x85⟩, .Seq1 0⟩, [11]⟩, 2)], [0, 0, 0], true) := by decide +kernel

/-- The theorem on replies applies to the run, to a call whose number was used before and is used again. -/
example : define_dispatch exSysApp = .ok exSys.disp ∧ Declared exSysApp exSys.kkind ∧ KeysApart exSysApp exSys ∧ Clean exSys ∧
    exSys.cfg.err_key = exSysApp.std.error ∧
    (∀ r ∈ exSysApp.endpoint_list.endpoints, short (keyLen exSys.kkind) r.resp ≠ short (keyLen exSys.kkind) exSysApp.std.error) ∧
    (∀ t ∈ exSysApp.topic_out_list.topics, short (keyLen exSys.kkind) t.key ≠ short (keyLen exSys.kkind) exSysApp.std.error) ∧
    (∀ h ∈ exSysApp.eps, ∃ r ∈ exSysApp.endpoint_list.endpoints, r.req = h.req ∧ r.resp = h.resp) ∧
    Sessions exSysApp exSys [] (Sys.new 0) ∧ (∀ l ∈ exAgain, UsedRaw exSysApp l) ∧
    OwnTasks (Sys.new 0 : Sys Nat WireTxErrorKind Nat Nat).tasks.length exAgain ∧ (repliers exAgain).Nodup ∧
    ∃ s, sys_run exSys exAgain (Sys.new 0) = some s ∧ ∃ cl, s.client.calls[1]? = some cl ∧ NumberKept s.client (seqVal cl.rqst.header.seq_no) ∧
      ¬ OnlyOne s.client 1 cl ∧ result cl = some (false, ⟨⟨.Key1 ⟨0x83⟩, .Seq4 0⟩, [10]⟩, 1) := by
  refine ⟨exSysApp_ok, exSysApp_declared, exSysApp_apart, fun _ _ => rfl, rfl, by decide, by decide, exSys_fits.handled, .first 0, by decide,
    fun _ _ _ => Nat.zero_le _, by decide, ?_⟩
  obtain ⟨s, e1, e2⟩ := Option.map_eq_some_iff.mp exAgain_result
  simp only [Prod.mk.injEq] at e2
  obtain ⟨e2, e3, e4⟩ := e2
  have h1 : (s.client.calls.map result)[1]? = some (some (false, ⟨⟨.Key1 ⟨0x83⟩, .Seq4 0⟩, [10]⟩, 1)) := by rw [e2]; rfl
  rw [List.getElem?_map] at h1
  obtain ⟨cl, h2, h3⟩ := Option.map_eq_some_iff.mp h1
  refine ⟨s, e1, cl, h2, kept_of e4 _, ?_, h3⟩
  intro ho
  have g0 : (numbers s.client)[0]? = some 0 := by rw [e3]; rfl
  have g1 : (numbers s.client)[1]? = some 0 := by rw [e3]; rfl
  rw [numbers, List.getElem?_map] at g0 g1
  obtain ⟨cl0, k1, k2⟩ := Option.map_eq_some_iff.mp g0
  rw [h2] at g1
  have g1 : seqVal cl.rqst.header.seq_no = 0 := Option.some.inj g1
  exact absurd (ho 0 cl0 k1 (k2.trans g1.symm)) (by decide)

/-- A call whose request cannot be read, with the number of one that has returned. -/
def exAgainErr : List (SLabel Nat) :=
  sysCall 0 3#8 0x83#8 [7] ++ sysSend ++ [.serve, .flush] ++ sysRecv [0x20, 0x83, 0, 0, 0, 0, 7] (some ⟨0, false⟩) ++ [.client (.call_ok 0)] ++
  sysRaw 1 (.Seq4 0) 3#8 0x83#8 [1, 2] ++ sysSend ++ [.serve, .flush] ++ sysRecv [0x20, 0xE0, 0, 0, 0, 0, 0xEE] (some ⟨1, true⟩) ++
  [.client (.call_err 1)]

/-- The theorem on errors applies to it. -/
example : (∀ l ∈ exAgainErr, UsedRaw exSysApp l) ∧ (repliers exAgainErr).Nodup ∧ ∃ s, sys_run exSys exAgainErr (Sys.new 0) = some s ∧
    ∃ cl, s.client.calls[1]? = some cl ∧ NumberKept s.client (seqVal cl.rqst.header.seq_no) ∧
      result cl = some (true, ⟨⟨.Key1 ⟨0xE0⟩, .Seq4 0⟩, [0xEE]⟩, 1) := by
  refine ⟨by decide, by decide, ?_⟩
  have h : (sys_run exSys exAgainErr (Sys.new 0)).map (fun s => (s.client.calls.map result, allKept s.client)) =
    some ([some (false, ⟨⟨.Key1 ⟨0x83⟩, .Seq4 0⟩, [7]⟩, 0), some (true, ⟨⟨.Key1 ⟨0xE0⟩, .Seq4 0⟩, [0xEE]⟩, 1)], true) := by decide +kernel
  obtain ⟨s, e1, e2⟩ := Option.map_eq_some_iff.mp h
  simp only [Prod.mk.injEq] at e2
  have h1 : (s.client.calls.map result)[1]? = some (some (true, ⟨⟨.Key1 ⟨0xE0⟩, .Seq4 0⟩, [0xEE]⟩, 1)) := by rw [e2.1]; rfl
  rw [List.getElem?_map] at h1
  obtain ⟨cl, h2, h3⟩ := Option.map_eq_some_iff.mp h1
  exact ⟨s, e1, cl, h2, kept_of e2.2 _, h3⟩

/-- `c45_wrapped` applies to the run of C45 (in which the numbers differ; none shorter than 2^32 calls has typed calls with the same one). -/
example : (∀ l ∈ exSysRun, Used exSysApp l) ∧ (repliers exSysRun).Nodup ∧ ∃ s, sys_run exSys exSysRun (Sys.new 0) = some s ∧
    (∃ cl ∈ s.client.calls, ∃ f i, result cl = some (false, f, i)) ∧ ∀ n, NumberKept s.client n := by
  refine ⟨by decide, by decide, ?_⟩
  have h : (sys_run exSys exSysRun (Sys.new 0)).map (fun s => ((s.client.calls.map result)[0]?, allKept s.client)) =
    some (some (some (false, ⟨⟨.Key1 ⟨0x85⟩, .Seq4 0⟩, [11]⟩, 2)), true) := by decide +kernel
  obtain ⟨s, e1, e2⟩ := Option.map_eq_some_iff.mp h
  simp only [Prod.mk.injEq] at e2
  have h1 := e2.1
  rw [List.getElem?_map] at h1
  obtain ⟨cl, h2, h3⟩ := Option.map_eq_some_iff.mp h1
  exact ⟨s, e1, ⟨cl, List.mem_of_getElem? h2, _, _, h3⟩, kept_of e2.2⟩

/-! ### A handler that replies twice -/

/-- A spawned handler replies to call 0, which returns; a second call takes the same number; the first handler replies again. -/
def exTwice : List (SLabel Nat) :=
  sysRaw 0 (.Seq1 9) 5#8 0x85#8 [1] ++ sysSend ++ [.serve, .task_reply 0 11] ++ sysRecv [0, 0x85, 9, 11] (some ⟨0, false⟩) ++ [.client (.call_ok 0)] ++
  sysRaw 1 (.Seq1 9) 5#8 0x85#8 [2] ++ sysSend ++ [.serve, .task_reply 0 12] ++ sysRecv [0, 0x85, 9, 12] (some ⟨1, false⟩) ++
  [.client (.call_ok 1)]

/-- Why handlers have to reply at most once: the second call returns the second reply of the first one's handler, with nothing given up. -/
theorem c100_second_reply : (∀ l ∈ exTwice, UsedRaw exSysApp l) ∧
    (sys_run exSys exTwice (Sys.new 0)).map (fun s => (s.client.calls.map result, s.outs.map Out.src, allKept s.client)) =
      some ([some (false, ⟨⟨.Key1 ⟨0x85⟩, .Seq1 9⟩, [11]⟩, 0), some (false, ⟨⟨.Key1 ⟨0x85⟩, .Seq1 9⟩, [12]⟩, 1)], [.task 0, .task 0], true) :=
  ⟨by decide, by decide +kernel⟩

end PRpc.Props
