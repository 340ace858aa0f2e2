import Verif.Model.Client
/-!
Vocabulary for C66: which steps a client takes by itself, and what it looks like when there is nothing left for it to do.
-/

namespace PRpc.Spec

/-- The steps that need nobody but the client's two workers, the calls and publications in progress, the transport completing
a send (with whatever result) and the clock.  Not among them: new calls, publications and subscriptions, arrivals from the
transport, receives on subscriptions, closing and dropping.  A worker that is being polled leaves the processor (`yield`) of its
own accord only when there is something for it to notice: that the client was stopped. -/
def Own (s : Client) : Label → Prop
  | .call_kind _ | .call_reg_ok _ | .call_reg_err _ | .call_send _ | .call_closed _ | .call_ok _ | .call_err _ => True
  | .pub_send _ | .pub_closed _ => True
  | .out_poll | .out_recv | .out_done _ => True
  | .in_poll | .in_lookup | .in_full_send | .in_full_timeout | .in_wake _ | .in_purge => True
  | .out_yield | .in_yield => s.stopped = true
  | _ => False

/-- A run of such steps. -/
inductive OwnRun (cfg : Cfg) : Client → List Label → Client → Prop where
  | nil (s : Client) : OwnRun cfg s [] s
  | cons {s t u : Client} {l : Label} {ls : List Label} (ho : Own s l) (h : step cfg s l = some t) (hr : OwnRun cfg t ls u) :
    OwnRun cfg s (l :: ls) u

/-- No such step is possible. -/
def Stuck (cfg : Cfg) (s : Client) : Prop := ∀ l, Own s l → step cfg s l = none

/-- What an open client with nothing left to do looks like: the workers wait for the queue and for the wire, the queue is empty,
every publication has returned, every call that has not ended waits for its answer, which has not been handed to it. -/
structure Idle (s : Client) : Prop where
  running : s.stopped = false ∧ s.handles = true
  out : s.out_pc = .recv ∧ s.outq = []
  inp : s.in_pc = .recv
  pubs : ∀ p ∈ s.pubs, ∃ r, p.res = some r
  calls : ∀ (c : Nat) (cl : Call), s.calls[c]? = some cl →
    (∃ r, cl.phase = .done r) ∨ cl.phase = .dropped ∨ ((∃ k, cl.phase = .waiting k) ∧ ∀ w ∈ s.woken, w.id.call ≠ c)

/-- What a closed client with nothing left to do looks like: both workers have ended, every call and every publication has. -/
structure Over (s : Client) : Prop where
  stopped : s.stopped = true
  out : s.out_pc = .exited
  inp : s.in_pc = .exited
  pubs : ∀ p ∈ s.pubs, ∃ r, p.res = some r
  calls : ∀ cl ∈ s.calls, (∃ r, cl.phase = .done r) ∨ cl.phase = .dropped

end PRpc.Spec
