import Verif.Model.Client
/-!
Model of the receive worker's wait for room in an exclusive subscription, `/repo/source/postcard-rpc/src/host_client/util.rs`
293-302, with a clock: the client of `Verif.Model.Client`, the messages that have arrived at the host and are not yet received,
and the end of `tokio::time::sleep`.

Time is counted in the units of `subscriber_timeout_if_full`.  `tokio::time::sleep` (external) starts when it is made and is
over from the moment its time has passed (tokio rounds up to milliseconds; not modelled).  Steps take no time; that the worker
is run in time is not a matter of the model but an assumption of the theorems (`Verif.Spec.Stall`).
-/

namespace PRpc

/-- `HostClientConfig` (util.rs 74-88) with the timeout itself in place of `is_zero()`. -/
structure ClkCfg where
  cfg : Cfg
  timeout : Nat

/-- What the worker asks, `subscription_timeout.is_zero()` (util.rs 288). -/
def ClkCfg.client (cc : ClkCfg) : Cfg := { cc.cfg with zero := cc.timeout == 0 }

/-- The client, the time, the end of the worker's sleep while it waits for room (util.rs 297) and the messages that arrived and
are not received.  `arr` and `fin` are bookkeeping: when each message arrived, and for each message dealt with, in order, when
the worker had finished with it and whether it had to wait for room. -/
structure Clk where
  client : Client
  now : Nat
  sleep : Option Nat
  air : List Bytes
  arr : List Nat
  fin : List (Nat × Bool)

/-- A new client at time zero (util.rs 125-149). -/
def Clk.new : Clk := ⟨Client.new, 0, none, [], [], []⟩

/-- The steps: time passing, a message arriving, and the client's own. -/
inductive ClkLabel where
  | tick
  | arrive (b : Bytes)
  | client (l : Label)
  deriving DecidableEq

/-- Bookkeeping: does this step, leading to `pc`, end the work on a message (the `loop` of util.rs 223-341 goes round), and did
the message wait for room? -/
def deals : Label → InPc → Option Bool
  | .in_recv (some _), .recv => some false
  | .in_lookup, .recv => some false
  | .in_wake _, _ => some false
  | .in_full_send, _ => some true
  | .in_full_timeout, _ => some true
  | _, _ => none

/-- After a step of the client: the sleep starts when the worker begins to wait (util.rs 297) and is dropped with the
`select!`. -/
def clk_after (cc : ClkCfg) (k : Clk) (l : Label) (c : Client) : Clk :=
  { k with
    client := c
    sleep := match c.in_pc with
      | .full _ _ _ => some (k.sleep.getD (k.now + cc.timeout))
      | _ => none
    fin := match deals l c.in_pc with
      | some w => k.fin ++ [(k.now, w)]
      | none => k.fin }

/-- One step.  `wire.receive()` (util.rs 224) gives the oldest message that arrived; the timeout branch (297) is taken only
when the sleep is over. -/
def clk_step (cc : ClkCfg) (k : Clk) : ClkLabel → Option Clk
  | .tick => some { k with now := k.now + 1 }
  | .arrive b => some { k with air := k.air ++ [b], arr := k.arr ++ [k.now] }
  | .client (.in_recv (some b)) =>
    match k.air with
    | [] => none
    | b' :: rest =>
      if b' = b then (step cc.client k.client (.in_recv (some b))).map (clk_after cc { k with air := rest } (.in_recv (some b)))
      else none
  | .client .in_full_timeout =>
    match k.sleep with
    | some u => if u ≤ k.now then (step cc.client k.client .in_full_timeout).map (clk_after cc k .in_full_timeout) else none
    | none => none
  | .client l => (step cc.client k.client l).map (clk_after cc k l)

/-- A run. -/
def clk_run (cc : ClkCfg) : List ClkLabel → Clk → Option Clk
  | [], k => some k
  | l :: ls, k =>
    match clk_step cc k l with
    | some k => clk_run cc ls k
    | none => none

end PRpc
