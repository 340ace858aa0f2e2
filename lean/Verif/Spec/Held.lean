import Verif.Spec.Client
/-! Vocabulary for C92: what a client holds on to. -/

namespace PRpc.Spec

/-- The call has neither returned nor been dropped. -/
def underWay (cl : Call) : Bool :=
  match cl.phase with
  | .done _ => false
  | .dropped => false
  | _ => true

/-- The calls that have neither returned nor been dropped. -/
def openCalls (s : Client) : Nat := (s.calls.filter underWay).length

/-- The exclusive subscriptions their users have not dropped. -/
def liveExcl (s : Client) : Nat := (s.subs.chans.filter (·.rx_alive)).length

/-- The multi-subscriptions their users have not dropped. -/
def liveMulti (s : Client) : Nat := (s.subs.brxs.filter (·.alive)).length

/-- The frame the transmit worker is sending, if any. -/
def inSend (s : Client) : Nat :=
  match s.out_pc with
  | .sending _ => 1
  | _ => 0

/-- The frame the receive worker is distributing, if any. -/
def inHand (s : Client) : Nat :=
  match s.in_pc with
  | .lookup _ => 1
  | .full _ _ _ => 1
  | .wake _ => 1
  | _ => 0

/-- All frames a client holds: waiting to be sent, in the hands of its two workers, given to a call that has not looked
yet, and waiting in subscriptions. -/
def framesHeld (s : Client) : Nat :=
  s.outq.length + inSend s + inHand s + s.woken.length + (s.subs.chans.map (·.queue.length)).sum +
    (s.subs.brxs.map (·.pending.length)).sum

/-- Every subscription asked for in a run is to a topic in `K` and of a depth of at most `d`. -/
def Subscribed (K : List Key) (d : Nat) (ls : List Label) : Prop :=
  ∀ l ∈ ls, match l with
    | .sub_excl k n => k ∈ K ∧ n ≤ d
    | .sub_repl k n => k ∈ K ∧ n ≤ d
    | .sub_multi k n => k ∈ K ∧ n ≤ d
    | _ => True

end PRpc.Spec
