import Verif.Spec.System
import Verif.Spec.Progress
/-!
Vocabulary for C67: conditions under which a composed system answers its calls, the steps it takes by itself, and its rest.
-/

namespace PRpc.Spec

variable {V E SC Ctx : Type}

/-- The parts of the application fit: the server's sends succeed, client and server use the same error key, the keys of
what the server sends differ at its key length, the error key differs, at this length, from all response keys and outgoing topic keys, and every handler is that of a declared
endpoint, and the schema report can be counted (`send_all_schemas` counts its messages in 16 bits). -/
structure Fits (a : App V E SC Ctx) (S : SysCfg V E SC Ctx) : Prop where
  sends : ∀ log f, S.env.send log f = none
  err_key : S.cfg.err_key = a.std.error
  apart : KeysApart a S
  resp_err : ∀ r ∈ a.endpoint_list.endpoints, short (keyLen S.kkind) r.resp ≠ short (keyLen S.kkind) a.std.error
  topic_err : ∀ t ∈ a.topic_out_list.topics, short (keyLen S.kkind) t.key ≠ short (keyLen S.kkind) a.std.error
  handled : ∀ h ∈ a.eps, ∃ r ∈ a.endpoint_list.endpoints, r.req = h.req ∧ r.resp = h.resp
  counters : S.env.overflow_checks = false ∨ (schemaMsgs S.disp.device_map).length ≤ 65535

/-- Subscriptions are made to declared outgoing topics, and no request is too large for the server's receive buffer. -/
def Listens (a : App V E SC Ctx) : SLabel V → Prop
  | .client (.sub_excl key _) => ∃ t ∈ a.topic_out_list.topics, t.key = key
  | .client (.sub_repl key _) => ∃ t ∈ a.topic_out_list.topics, t.key = key
  | .client (.sub_multi key _) => ∃ t ∈ a.topic_out_list.topics, t.key = key
  | .reject => False
  | _ => True

/-- The spawned handler has replied. -/
def Replied (s : Sys V E SC Ctx) (i : Nat) : Prop := ∃ o ∈ s.outs, o.src = .task i

/-- The steps the composed system takes by itself: the client's own steps with sends that succeed, the client receiving what is
on the link, the server taking frames and sending its answers, and every spawned endpoint handler replying once.  Not among
them: new calls, publications and subscriptions, closing and dropping, publications by the server's application. -/
def SysOwn (s : Sys V E SC Ctx) : SLabel V → Prop
  | .client (.out_done ok) => ok = true
  | .client (.in_recv r) => r ≠ none
  | .client l => Own s.client l
  | .serve => True
  | .flush => True
  | .task_reply i _ => ¬ Replied s i
  | _ => False

/-- Nothing is left to do: the client is idle, the server has taken every frame and sent its answers, every endpoint handler
spawned for this client has replied, the link to the client is empty. -/
structure AtRest (s : Sys V E SC Ctx) : Prop where
  client : Idle s.client
  taken : s.taken = s.client.tx.length
  pending : s.pending = []
  tasks : ∀ (i : Nat) j t, s.tasks[i]? = some (j, t) → s.old ≤ i → t.role = .endpoint → Replied s i
  air : s.air = []

/-- A run of such steps. -/
inductive SysOwnRun (S : SysCfg V E SC Ctx) : Sys V E SC Ctx → List (SLabel V) → Sys V E SC Ctx → Prop where
  | nil (s : Sys V E SC Ctx) : SysOwnRun S s [] s
  | cons {s t u : Sys V E SC Ctx} {l : SLabel V} {ls : List (SLabel V)} (ho : SysOwn s l) (h : sys_step S s l = some t)
    (hr : SysOwnRun S t ls u) : SysOwnRun S s (l :: ls) u

/-- No such step is possible, except perhaps replies of handlers spawned for an earlier client. -/
def SysStuck (S : SysCfg V E SC Ctx) (s : Sys V E SC Ctx) : Prop :=
  ∀ l, SysOwn s l → (∀ i v, l = .task_reply i v → s.old ≤ i) → sys_step S s l = none

/-- The client was neither closed nor dropped. -/
def Open (s : Sys V E SC Ctx) : Prop := s.client.stopped = false ∧ s.client.handles = true

end PRpc.Spec
