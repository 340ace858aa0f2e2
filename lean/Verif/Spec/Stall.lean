import Verif.Model.Stall
/-! Vocabulary for C83: a worker that is run in time, and how long a message takes. -/

namespace PRpc.Spec

/-- The steps the receive worker takes by itself, once it has something to do. -/
inductive WorkerStep : Label → Prop where
  | poll : WorkerStep .in_poll
  | recv (b : Bytes) : WorkerStep (.in_recv (some b))
  | lookup : WorkerStep .in_lookup
  | full_send : WorkerStep .in_full_send
  | full_timeout : WorkerStep .in_full_timeout
  | wake (w : Option WaitId) : WorkerStep (.in_wake w)
  | purge : WorkerStep .in_purge

/-- The receive worker has nothing to do: no step of its own is possible, and it has ended if the client is stopped. -/
structure Rests (cc : ClkCfg) (k : Clk) : Prop where
  none_possible : ∀ l, WorkerStep l → clk_step cc k (.client l) = none
  ended : k.client.stopped = true → k.client.in_pc = .exited

/-- Time passes only while the receive worker has nothing to do. -/
def InTime (cc : ClkCfg) : List ClkLabel → Clk → Prop
  | [], _ => True
  | l :: ls, k => (l = .tick → Rests cc k) ∧ ∀ k', clk_step cc k l = some k' → InTime cc ls k'

/-- When the worker had finished with the message before the `i`-th. -/
def finishedBefore (fin : List (Nat × Bool)) : Nat → Nat
  | 0 => 0
  | i + 1 => (fin[i]?.map Prod.fst).getD 0

/-- The exclusive subscription of this message is alive and has no room for it. -/
def NoRoom (s : Subs) (f : RpcFrame) : Prop :=
  ∃ key id c, (key, id) ∈ s.exclusive_list ∧ (VarKey.Key8 key).eq f.header.key = true ∧ s.chans[id]? = some c ∧ c.rx_alive = true ∧
    c.cap ≤ c.queue.length

/-- How many of the messages `m` to `n` had to wait for room. -/
def waited (fin : List (Nat × Bool)) (m n : Nat) : Nat := ((fin.take (n + 1)).drop m).countP (·.2)

/-- Worker steps, with the worker ending one poll and being polled again. -/
inductive WorkerRun (cc : ClkCfg) : Clk → Clk → Prop where
  | refl (k) : WorkerRun cc k k
  | head {k k' k'' l} : WorkerStep l ∨ l = .in_yield → clk_step cc k (.client l) = some k' → WorkerRun cc k' k'' → WorkerRun cc k k''

/-- The receive worker holds the lock of the subscriptions all through this run: whoever subscribes waits. -/
def Holds (cc : ClkCfg) : List ClkLabel → Clk → Prop
  | [], k => k.client.lock_free = false
  | l :: ls, k => k.client.lock_free = false ∧ ∀ k', clk_step cc k l = some k' → Holds cc ls k'

end PRpc.Spec
