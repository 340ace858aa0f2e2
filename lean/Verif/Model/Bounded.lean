import Verif.Model.System
/-!
The composed system over channels of bounded capacity: `tokio::sync::mpsc` (external) as used by
`/repo/source/postcard-rpc/src/host_client/test_channels.rs` 42-78 and
`/repo/source/postcard-rpc/src/server/impls/test_channels.rs` 104-279.  A channel holds a given number of messages; `send` waits
while it is full, `recv` while it is empty.
-/

namespace PRpc

variable {V E SC Ctx : Type}

/-- The messages whose `send` by the transmit worker (`ChannelTx::send`, host_client/test_channels.rs 73-77) has completed: all
that were handed to it, but for the one it is at. -/
def Client.sent (s : Client) : Nat :=
  match s.out_pc with
  | .sending _ => s.tx.length - 1
  | _ => s.tx.length

/-- How many messages are in the channel to the server.  (If the client is closed during a `send` the message counts as sent,
although the future was dropped: what holds with it arriving holds without.) -/
def Sys.in_up (s : Sys V E SC Ctx) : Nat := s.client.sent - s.taken

/-- Can the step happen with channels of capacity `up` and `down`?  The transmit worker's `send` ends (host_client/test_channels.rs
76) and the server's sends end (`inner_send`, server/impls/test_channels.rs 131-150) when there is room; the server takes a message
(`receive`, server/impls/test_channels.rs 254-278) when there is one.  The client's `receive` (host_client/test_channels.rs 58-67)
waits for a message in `sys_step` already. -/
def has_room (up down : Nat) (s : Sys V E SC Ctx) : SLabel V → Bool
  | .client (.out_done true) => s.in_up < up
  | .serve => 0 < s.in_up
  | .reject => 0 < s.in_up
  | .flush => s.air.length < down
  | .task_reply _ _ => s.air.length < down
  | .app_publish _ _ _ => s.air.length < down
  | _ => true

/-- One step of the composed system over bounded channels. -/
def bnd_step (S : SysCfg V E SC Ctx) (up down : Nat) (s : Sys V E SC Ctx) (l : SLabel V) : Option (Sys V E SC Ctx) :=
  if has_room up down s l then sys_step S s l else none

/-- A run of it. -/
def bnd_run (S : SysCfg V E SC Ctx) (up down : Nat) : List (SLabel V) → Sys V E SC Ctx → Option (Sys V E SC Ctx)
  | [], s => some s
  | l :: ls, s =>
    match bnd_step S up down s l with
    | some s' => bnd_run S up down ls s'
    | none => none

end PRpc
