import Verif.Model.SchemaReport
import Verif.Model.Client
/-!
Model of `HostClient::get_schema_report`, `/repo/source/postcard-rpc/src/host_client/mod.rs` 251-321, as it runs: the task it
spawns to collect the messages, the clock, and the client around it.  What is made of the data is `get_schema_report` of
`Verif.Model.SchemaReport`.

Time is counted in milliseconds.  `tokio::time::timeout` (external) starts when it is called; when polled, it first polls the
future, and only if that waits looks whether the time is over.  One `poll` step takes at most one message; tokio's budget of
polls is not modelled (it may end a poll of the task between two steps).  `postcard::from_bytes` is a parameter.
-/

namespace PRpc

/-- The client's configuration; the keys of `GetAllSchemaDataTopic` and `GetAllSchemasEndpoint` (standard_icd.rs 133, 143), and
how their messages are decoded. -/
structure QCfg where
  cfg : Cfg
  topic : Key
  req : Key
  resp : Key
  decode : Bytes → Option SchemaData
  decode_totals : Bytes → Option SchemaTotals

/-- One execution of `get_schema_report`: the client, the time, the subscription (252) and the call (267) once made, the end
of the present timeout of the collecting task once it runs (260), what the task has seen, whether it has ended, and whether
the subscription was refused (253).  `begun` is bookkeeping: the number of messages that had arrived at the subscription. -/
structure Query where
  client : Client
  now : Nat
  sub : Option Nat
  call : Option Nat
  deadline : Option Nat
  seen : List Collected
  ended : Bool
  refused : Bool
  begun : Nat

/-- Before the call. -/
def Query.new : Query := ⟨Client.new, 0, none, none, none, [], false, false, 0⟩

/-- The steps: other things done to and by the client, time passing, the subscription, the request, and a poll of the
collecting task. -/
inductive QLabel where
  | client (l : Label)
  | tick
  | subscribe
  | trigger
  | poll
  deriving DecidableEq

/-- Is this use of the client reserved for `get_schema_report`?  It owns its subscription and its call. -/
def Query.owns (q : Query) : Label → Bool
  | .recv_multi id => q.sub == some id
  | .drop_multi id => q.sub == some id
  | .call_drop c => q.call == some c
  | _ => false

/-- The end of the collecting task, mod.rs 264-265: the subscription is dropped with it. -/
def collect_end (q : Query) (id : Nat) (subs : Subs) (e : Collected) : Query :=
  { q with client := { q.client with subs := multi_drop subs id }, seen := q.seen ++ [e], ended := true }

/-- A poll of the collecting task, mod.rs 256-266, with `MultiSubscription::recv` (861-874) inside `timeout`: a message that
decodes is kept and the time starts anew; one that does not is skipped and the time goes on; any error ends the task. -/
def collect_poll (qc : QCfg) (q : Query) (id : Nat) : Query :=
  let deadline := q.deadline.getD (q.now + 100)
  match multi_recv q.client.subs id with
  | (some (.Ok f), subs) =>
    match qc.decode f.body with
    | some d =>
      { q with client := { q.client with subs := subs }, seen := q.seen ++ [.msg d], deadline := some (q.now + 100) }
    | none => { q with client := { q.client with subs := subs }, deadline := some deadline }
  | (some .IoClosed, subs) => collect_end q id subs .rx_err
  | (some (.Lagged _), subs) => collect_end q id subs .rx_err
  | (none, subs) =>
    if deadline ≤ q.now then collect_end q id subs .timeout else { q with deadline := some deadline }

/-- One step. -/
def q_step (qc : QCfg) (q : Query) : QLabel → Option Query
  | .client l => if q.owns l then none else (step qc.cfg q.client l).map fun c => { q with client := c }
  | .tick => some { q with now := q.now + 1 }
  -- mod.rs 252-254
  | .subscribe =>
    if q.sub.isSome ∨ q.refused then none
    else
      (step qc.cfg q.client (.sub_multi qc.topic 64)).map fun c =>
        match (subscribe_multi_inner q.client.subs qc.topic 64).1 with
        | .Ok id => { q with client := c, sub := some id, begun := q.client.subs.arrived.length }
        | _ => { q with client := c, refused := true }
  -- mod.rs 267; `()` is serialized to nothing
  | .trigger =>
    if q.sub.isSome ∧ q.call = none then
      (step qc.cfg q.client (.call_begin qc.req qc.resp [])).map fun c => { q with client := c, call := some q.client.calls.length }
    else none
  | .poll =>
    match q.sub with
    | some id => if q.ended then none else some (collect_poll qc q id)
    | none => none

/-- A run. -/
def q_run (qc : QCfg) : List QLabel → Query → Option Query
  | [], q => some q
  | l :: ls, q =>
    match q_step qc q l with
    | some q => q_run qc ls q
    | none => none

/-- What `send_resp` gave (mod.rs 267, 347-349) as the error or the totals. -/
def trigger_res {W : Type} (r : HostRes SchemaTotals W) : Except (HostRes Unit W) SchemaTotals :=
  match r with
  | .Ok t => .ok t
  | .Wire e => .error (.Wire e)
  | .Postcard => .error .Postcard
  | .Closed => .error .Closed
  | .BadResponse => .error .BadResponse

/-- The value returned, mod.rs 252-254, 267-321; `none` while it is not yet there: both the call and the task have to end.
(The task does not panic.) -/
def Query.result {W : Type} (qc : QCfg) (decode_err : Bytes → Option W) (hash : Bytes → Nty → Key)
    (iter : List Nty → List Nty) (prims : List Nty) (q : Query) :
    Option (Exec (Except (SchemaError (HostRes Unit W)) SchemaReport)) :=
  if q.refused then some (get_schema_report .Closed hash iter prims false (.error .Closed) none)
  else
    match q.call with
    | none => none
    | some c =>
      match q.client.calls[c]? with
      | none => none
      | some cl =>
        match cl.phase with
        | .done r =>
          if q.ended then
            some (get_schema_report .Closed hash iter prims true (trigger_res (finish_call qc.decode_totals decode_err r))
              (some q.seen))
          else none
        | _ => none

end PRpc
