import Verif.Spec.System
/-! Vocabulary for the properties of sessions. -/

namespace PRpc.Spec

variable {V E SC Ctx : Type}

/-- A server that has had the clients whose sessions ended in the states `es` (each with its own calls and links), and now starts in
state `s` with a new one. -/
inductive Sessions (a : App V E SC Ctx) (S : SysCfg V E SC Ctx) : List (Sys V E SC Ctx) → Sys V E SC Ctx → Prop where
  | first (c : Ctx) : Sessions a S [] (Sys.new c)
  | next (es : List (Sys V E SC Ctx)) (s s' : Sys V E SC Ctx) (ls : List (SLabel V)) : Sessions a S es s → (∀ l ∈ ls, Used a l) →
      sys_run S ls s = some s' → s'.client.calls.length < 2 ^ 32 → Sessions a S (es ++ [s']) s'.reconnect

/-- No task spawned for an earlier client replies: tasks below `n` do nothing. -/
def OwnTasks (n : Nat) (ls : List (SLabel V)) : Prop := ∀ i v, .task_reply i v ∈ ls → n ≤ i

/-- In the session that ended in state `e`, task `t` was spawned for the request of the call `c'`, which had the same sequence number
as the call `cl` and was of the endpoint whose handler replies under the response key of `cl`. -/
structure SameNumber (D : Dispatcher V E SC Ctx) (e : Sys V E SC Ctx) (c' : Nat) (cl' cl : Call) (j : Nat) (t : Task V SC) : Prop where
  request : RequestOf e c' cl' j t.hdr
  number : seqVal cl'.rqst.header.seq_no = seqVal cl.rqst.header.seq_no
  handler : ∃ h ∈ D.eps, h.name = t.name ∧ h.flavor = .spawn ∧ cl'.rqst.header.key = .Key8 h.req ∧ h.resp = cl.resp_key ∧
    h.decode cl'.rqst.body = some t.arg

end PRpc.Spec
