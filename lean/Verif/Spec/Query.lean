import Verif.Model.Query
import Verif.Spec.Client
import Verif.Spec.SchemaReport
/-! What collecting the schema messages of a device should do. -/

namespace PRpc.Spec

/-- The frames of the schema topic that have arrived since the query subscribed. -/
def schemaArrivals (qc : QCfg) (q : Query) : List RpcFrame := topicPart qc.topic q.begun q.client.subs.arrived

/-- Milliseconds since the last schema message arrived or, before the first, since the subscription; `n` at the start. -/
def silence (qc : QCfg) : List QLabel → Query → Nat → Nat
  | [], _, n => n
  | l :: ls, q, n =>
    match q_step qc q l with
    | none => n
    | some q' =>
      silence qc ls q' (match l with
        | .tick => n + 1
        | .subscribe => 0
        | _ => if (schemaArrivals qc q').length = (schemaArrivals qc q).length then n else 0)

/-- Along the whole run: what `P` says of the state and of the silence there. -/
def Throughout (qc : QCfg) (P : Query → Nat → Prop) (ls : List QLabel) : Prop :=
  ∀ as bs t, ls = as ++ bs → q_run qc as Query.new = some t → P t (silence qc as Query.new 0)

/-- Collecting can do its work: at most 64 messages wait for the task, all are proper schema messages, and no frame belongs
to two subscribed topics. -/
structure Orderly (qc : QCfg) (q : Query) : Prop where
  room : q.ended = false → (schemaArrivals qc q).length ≤ (arrived q.seen).length + 64
  decodes : ∀ f ∈ schemaArrivals qc q, (qc.decode f.body).isSome
  alone : ∀ f ∈ q.client.subs.arrived, ∀ r1 ∈ q.client.subs.brxs, ∀ r2 ∈ q.client.subs.brxs,
    OfTopic r1.key f → OfTopic r2.key f → r1.key = r2.key

/-- The first `n` messages come promptly: as long as fewer have arrived since the subscription, the last one is less than
100 ms ago and the client is receiving. -/
def PromptTo (qc : QCfg) (n : Nat) (q : Query) (quiet : Nat) : Prop :=
  q.sub ≠ none → (schemaArrivals qc q).length < n → quiet < 100 ∧ q.client.in_pc ≠ .purge ∧ q.client.in_pc ≠ .exited

/-- Nobody else subscribed to the schema topic with a smaller depth. -/
def DeepEnough (qc : QCfg) (ls : List QLabel) : Prop := ∀ n, QLabel.client (.sub_multi qc.topic n) ∈ ls → 64 ≤ n

/-- The query's answer is the complete report of the device with map `m`. -/
def FullReport {W : Type} (qc : QCfg) (decode_err : Bytes → Option W) (hash : Bytes → Nty → Key) (iter : List Nty → List Nty)
    (prims : List Nty) (m : DeviceMap) (q : Query) : Prop :=
  ∃ r, q.result qc decode_err hash iter prims = some (.ok (.ok r)) ∧ ListsAll m r ∧ Resolved hash (prims ++ m.types) r ∧
    ∀ ty, ty ∈ r.types ↔ ty ∈ prims ++ m.types

/-- The device with map `m` has answered the query in full: all its schema messages have arrived, and nothing else on their
topic; the call has ended with totals that say so; every key belongs to a type the device lists or to a primitive one. -/
structure Answered (qc : QCfg) (hash : Bytes → Nty → Key) (prims : List Nty) (m : DeviceMap) (q : Query) : Prop where
  msgs : (schemaArrivals qc q).map (fun f => qc.decode f.body) = (schemaMsgs m).map some
  totals : ∃ (c : Nat) (cl : Call) (f : RpcFrame) (i : Nat) (t : SchemaTotals), q.call = some c ∧ q.client.calls[c]? = some cl ∧
    cl.phase = .done (.Resp f i) ∧ qc.decode_totals f.body = some t ∧ TotalsFor m t ∧ t.errors = 0
  endpoints : ∀ e ∈ m.endpoints, (∃ ty ∈ prims ++ m.types, hash e.path ty = e.req) ∧
    ∃ ty ∈ prims ++ m.types, hash e.path ty = e.resp
  topics : ∀ e ∈ m.topics_in ++ m.topics_out, ∃ ty ∈ prims ++ m.types, hash e.path ty = e.key

/-- Only time passing and the task being polled; at most `n` ms. -/
def OnlyWaiting (n : Nat) (ws : List QLabel) : Prop := (∀ l ∈ ws, l = .tick ∨ l = .poll) ∧ ws.count .tick ≤ n

end PRpc.Spec
