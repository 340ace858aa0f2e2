import Verif.Spec.System
import Verif.Model.SchemaReport
/-! Vocabulary for C100. -/

namespace PRpc.Spec

variable {V E SC Ctx : Type}

/-- What a host does that knows of the server only the schema report `r`: its calls, typed or raw, are of endpoints of the report,
with the keys listed there, its publications of topics listed as going to the server; the server's application publishes topics
listed as coming from it. -/
def ByReport (r : SchemaReport) : SLabel V → Prop
  | .client (.call_begin req resp _) => ∃ e ∈ r.endpoints, e.req_key = req ∧ e.resp_key = resp
  | .client (.call_begin_raw f resp) => ∃ e ∈ r.endpoints, f.header.key = .Key8 e.req_key ∧ e.resp_key = resp
  | .client (.pub_begin f) => ∃ t ∈ r.topics_in, f.header.key = .Key8 t.key
  | .app_publish key _ _ => ∃ t ∈ r.topics_out, t.key = key
  | _ => True

/-- The call is the only one of the session with its sequence number, however the number is written. -/
def OnlyOne (s : Client) (c : Nat) (cl : Call) : Prop :=
  ∀ (c' : Nat) (cl' : Call), s.calls[c']? = some cl' → seqVal cl'.rqst.header.seq_no = seqVal cl.rqst.header.seq_no → c' = c

/-- No call with number `n` was given up by its caller or ended by the closing of the client, and no publication has this number. -/
def NumberKept (s : Client) (n : Nat) : Prop :=
  (∀ cl ∈ s.calls, seqVal cl.rqst.header.seq_no = n → cl.phase ≠ .dropped ∧ cl.phase ≠ .done .Closed) ∧
  ∀ pb ∈ s.pubs, seqVal pb.orig.header.seq_no ≠ n

/-- In the run `ls` from `s0` call `c` handed its request to the outgoing queue as the `j`-th message of the session: there is a step
of this call before which the queue had accepted `j` messages and after which `j + 1`. -/
def SentAt (S : SysCfg V E SC Ctx) (s0 : Sys V E SC Ctx) (ls : List (SLabel V)) (c j : Nat) : Prop :=
  ∃ before after s1 s2, ls = before ++ .client (.call_send c) :: after ∧ sys_run S before s0 = some s1 ∧
    sys_step S s1 (.client (.call_send c)) = some s2 ∧ s1.client.enq.length = j ∧ s2.client.enq.length = j + 1

/-- The tasks whose replies are in the run, one entry for each reply. -/
def repliers : List (SLabel V) → List Nat
  | [] => []
  | .task_reply i _ :: ls => i :: repliers ls
  | _ :: ls => repliers ls

end PRpc.Spec
